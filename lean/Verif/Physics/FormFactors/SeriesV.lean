import Verif.Physics.FormFactors.SeriesTheorems
/-!
# Properties of the series parametrisations of `B → V` and `Λb → Λ` form factors
-/
set_option linter.unusedVariables false
set_option linter.unusedSimpArgs false
namespace Verif.FormFactors
open Verif.Py Verif.Running Verif.Bll Verif.Angular

theorem put_same (par : Par) (k : String) (v : ℝ) : par.put k v k = some v := by simp [Par.put]

theorem put_ne (par : Par) {k k' : String} (v : ℝ) (h : k' ≠ k) : par.put k v k' = par k' := by simp [Par.put, h]

/-- Two parameter dictionaries that agree except for the two entries that `bsz.ff` overwrites. (Specification.) -/
def SameBut (pre : String) (p q : Par) : Prop := ∀ k, k ≠ pre ++ " a0_A12" → k ≠ pre ++ " a0_T2" → p k = q k

/-- What `bszVPar` does. -/
theorem bszVPar_spec {par par' : Par} {pre : String} {mB mV : ℝ} (h : bszVPar par pre mB mV = .ok par') :
    SameBut pre par' par ∧ ∃ a0 t1, par (pre ++ " a0_A0") = some a0 ∧ par (pre ++ " a0_T1") = some t1 ∧
      par' (pre ++ " a0_A12") = some (a0 / (8 * mB * mV / (mB ^ 2 - mV ^ 2))) ∧ par' (pre ++ " a0_T2") = some t1 ∧
      mB ^ 2 - mV ^ 2 ≠ 0 ∧ 8 * mB * mV ≠ 0 := by
  obtain ⟨a0, h1, h⟩ := fbind h
  obtain ⟨d, h2, h⟩ := fbind h
  obtain ⟨v, h3, h⟩ := fbind h
  obtain ⟨t1, h4, h⟩ := fbind h
  cases h
  unfold pyDiv at h2
  split_ifs at h2 with g1
  cases h2
  unfold pyDiv at h3
  split_ifs at h3 with g2
  cases h3
  have h4 := get_some h4
  rw [put_ne _ _ (by simp [String.append_assoc])] at h4
  refine ⟨?_, a0, t1, get_some h1, h4, ?_, put_same _ _ _, g1, ?_⟩
  · intro k k1 k2
    rw [put_ne _ _ k2, put_ne _ _ k1]
  · rw [put_ne _ _ (by simp [String.append_assoc]), put_same]
  · intro h0
    rw [h0, zero_div] at g2
    exact g2 rfl

theorem bszVTerm_zero {par : Par} {pre i : String} {m mB mV : ℝ} {n : ℕ} {v : ℝ} (hn : 0 < n)
    (h : bszVTerm par pre i m mB mV 0 n = .ok v) : par (pre ++ " a" ++ "0" ++ "_" ++ i) = some v := by
  obtain ⟨a, h1, h⟩ := fbind h
  obtain ⟨p, h2, h⟩ := fbind h
  obtain ⟨zs, h3, h⟩ := fbind h
  obtain ⟨d, h4, h⟩ := fbind h
  cases h
  obtain rfl := poleV_zero h2
  obtain ⟨x, l, rfl, e1⟩ := head_coeff hn h1
  have : d = x := by
    refine bszTerm_zero (m := 0) (mB := mB) (mP := mV) (t0 := .none) (l := l) hn ?_
    show (pole _ _ >>= _) = _
    rw [pole_zero, fok, h3, fok, h4, fok]
    show Except.ok _ = _
    rw [one_mul]
  rw [e1, this, one_mul]

/-- The masses of a `B → V` transition as read from the parameters. (Specification.) -/
def massesV (process : String) (par : Par) (mB mV : ℝ) : Prop :=
  ∃ pd, processV process = .ok pd ∧ par ("m_" ++ pd.1) = some mB ∧ par ("m_" ++ pd.2) = some mV

/-- **C104**: the BSZ parametrisation of `B → V` form factors fulfils the kinematic relations `T₁(0) = T₂(0)` and
`A₁₂(0) = (mB² - mV²)/(8 mB mV) A₀(0)`, for every process, `n ≥ 1` and all parameters; `V(0)`, `A₀(0)`, `A₁(0)`, `T₁(0)`, `T₂₃(0)` are the
parameters `a0_…`. -/
theorem C104_bszV_kinematic (process : String) (par par' : Par) (n : ℕ) (hn : 0 < n) (F : FFV)
    (h : bszVFF process 0 par n = .ok (F, par')) :
    F.T1 = F.T2 ∧ (∃ mB mV, massesV process par mB mV ∧ 8 * mB * mV * F.A12 = (mB ^ 2 - mV ^ 2) * F.A0) ∧
    par (process ++ " BSZ a0_V") = some F.V ∧ par (process ++ " BSZ a0_A0") = some F.A0 ∧
    par (process ++ " BSZ a0_A1") = some F.A1 ∧ par (process ++ " BSZ a0_T1") = some F.T1 ∧
    par (process ++ " BSZ a0_T23") = some F.T23 := by
  obtain ⟨pd, h0, h⟩ := fbind h
  obtain ⟨m0, -, h⟩ := fbind h
  obtain ⟨m1m, -, h⟩ := fbind h
  obtain ⟨m1p, -, h⟩ := fbind h
  obtain ⟨mB, hB, h⟩ := fbind h
  obtain ⟨mV, hV, h⟩ := fbind h
  obtain ⟨q, hq, h⟩ := fbind h
  obtain ⟨A0, h1, h⟩ := fbind h
  obtain ⟨A1, h2, h⟩ := fbind h
  obtain ⟨A12, h3, h⟩ := fbind h
  obtain ⟨V, h4, h⟩ := fbind h
  obtain ⟨T1, h5, h⟩ := fbind h
  obtain ⟨T2, h6, h⟩ := fbind h
  obtain ⟨T23, h7, h⟩ := fbind h
  cases h
  obtain ⟨hs, a0, t1, e1, e2, e3, e4, e5, e6⟩ := bszVPar_spec hq
  have k : ∀ i, process ++ " BSZ" ++ " a" ++ "0" ++ "_" ++ i = process ++ " BSZ" ++ (" a0_" ++ i) := by
    intro i
    simp only [String.append_assoc]; congr 1
  have key : ∀ i v, par' (process ++ " BSZ" ++ " a" ++ "0" ++ "_" ++ i) = some v → i ≠ "A12" → i ≠ "T2" →
      par (process ++ " BSZ" ++ (" a0_" ++ i)) = some v := by
    intro i v hv i1 i2
    rw [k] at hv
    rw [← hv]
    refine (hs _ ?_ ?_).symm
    · intro he
      have := (String.append_right_inj _).1 he
      exact i1 ((String.append_right_inj " a0_").1 (this.trans (by decide : " a0_A12" = " a0_" ++ "A12")))
    · intro he
      have := (String.append_right_inj _).1 he
      exact i2 ((String.append_right_inj " a0_").1 (this.trans (by decide : " a0_T2" = " a0_" ++ "T2")))
  have g1 := key _ _ (bszVTerm_zero hn h1) (by decide) (by decide)
  have g2 := key _ _ (bszVTerm_zero hn h2) (by decide) (by decide)
  have g4 := key _ _ (bszVTerm_zero hn h4) (by decide) (by decide)
  have g5 := key _ _ (bszVTerm_zero hn h5) (by decide) (by decide)
  have g7 := key _ _ (bszVTerm_zero hn h7) (by decide) (by decide)
  have g3 := bszVTerm_zero hn h3
  have g6 := bszVTerm_zero hn h6
  rw [k] at g3 g6
  have f3 : par' (process ++ " BSZ" ++ (" a0_" ++ "A12")) = _ := e3
  have f6 : par' (process ++ " BSZ" ++ (" a0_" ++ "T2")) = _ := e4
  have f1 : par (process ++ " BSZ" ++ (" a0_" ++ "A0")) = _ := e1
  have f5 : par (process ++ " BSZ" ++ (" a0_" ++ "T1")) = _ := e2
  rw [f3] at g3; rw [f6] at g6; rw [f1] at g1; rw [f5] at g5
  cases g1; cases g3; cases g5; cases g6
  have fin : ∀ i v, par (process ++ " BSZ" ++ (" a0_" ++ i)) = some v → par (process ++ (" BSZ" ++ (" a0_" ++ i))) = some v := by
    intro i v hv
    rw [← String.append_assoc]; exact hv
  refine ⟨rfl, ⟨mB, mV, ⟨pd, h0, get_some hB, get_some hV⟩, ?_⟩, fin "V" _ g4, fin "A0" _ f1, fin "A1" _ g2, fin "T1" _ f5, fin "T23" _ g7⟩
  show 8 * mB * mV * (A0 / (8 * mB * mV / (mB ^ 2 - mV ^ 2))) = (mB ^ 2 - mV ^ 2) * A0
  have aux : ∀ x y a : ℝ, x ≠ 0 → y ≠ 0 → x * (a / (x / y)) = y * a := by
    intro x y a hx hy
    field_simp
  exact aux _ _ _ e6 e5

/-- The values of the two overwritten entries do not matter. -/
theorem bszVPar_congr {p q : Par} {pre : String} {mB mV : ℝ} (h : SameBut pre p q) : bszVPar p pre mB mV = bszVPar q pre mB mV := by
  have h1 : p (pre ++ " a0_A0") = q (pre ++ " a0_A0") := h _ (by simp) (by simp)
  have h2 : p (pre ++ " a0_T1") = q (pre ++ " a0_T1") := h _ (by simp) (by simp)
  unfold bszVPar
  have e1 : p.get (pre ++ " a0_A0") = q.get (pre ++ " a0_A0") := by unfold Par.get; rw [h1]
  rw [e1]
  congr 1; funext a0
  congr 1; funext d
  congr 1; funext v
  have e2 : (p.put (pre ++ " a0_A12") v).get (pre ++ " a0_T1") = (q.put (pre ++ " a0_A12") v).get (pre ++ " a0_T1") := by
    unfold Par.get
    rw [put_ne _ _ (by simp), put_ne _ _ (by simp), h2]
  show ((p.put (pre ++ " a0_A12") v).get (pre ++ " a0_T1") >>= _) = ((q.put (pre ++ " a0_A12") v).get (pre ++ " a0_T1") >>= _)
  rw [e2]
  congr 1; funext t
  show Except.ok _ = Except.ok _
  congr 1
  funext k
  by_cases k2 : k = pre ++ " a0_T2"
  · rw [k2, put_same, put_same]
  · rw [put_ne _ _ k2, put_ne _ _ k2]
    by_cases k1 : k = pre ++ " a0_A12"
    · rw [k1, put_same, put_same]
    · rw [put_ne _ _ k1, put_ne _ _ k1, h k k1 k2]

/-- **C104**: `bsz.ff` writes to the parameter dictionary it is given, but only the two entries `a0_A12` and `a0_T2` that the kinematic relations
determine; their previous values never matter, so repeated calls, at any `q²`, give the same as calls on the original dictionary. -/
theorem C104_bszV_parameters (process : String) (n : ℕ) :
    (∀ q2 p q, SameBut (process ++ " BSZ") p q → bszVFF process q2 p n = bszVFF process q2 q n) ∧
    (∀ q2 par F par', bszVFF process q2 par n = .ok (F, par') →
      SameBut (process ++ " BSZ") par' par ∧ ∀ q2', bszVFF process q2' par' n = bszVFF process q2' par n) := by
  have first : ∀ q2 p q, SameBut (process ++ " BSZ") p q → bszVFF process q2 p n = bszVFF process q2 q n := by
    intro q2 p q h
    unfold bszVFF
    cases hp : processV process with
    | error e => rfl
    | ok pd =>
      rw [fok, fok]
      have hm : ∀ x, x = pd.1 ∨ x = pd.2 → ∀ y, "m_" ++ x ≠ process ++ y := by
        intro x hx y he
        unfold processV at hp
        have h1 := congrArg (fun s => s.toList.head?) he
        have h2 := congrArg (fun s => (s.toList.drop 1).head?) he
        split at hp <;> first | (cases hp; simp at h1) | (cases hp)
      have g : ∀ k, k ≠ process ++ " BSZ" ++ " a0_A12" → k ≠ process ++ " BSZ" ++ " a0_T2" → p.get k = q.get k := by
        intro k k1 k2
        unfold Par.get
        rw [h k k1 k2]
      rw [g (process ++ " BCL m0") (by simp [String.append_assoc]) (by simp [String.append_assoc]),
        g (process ++ " BCL m1-") (by simp [String.append_assoc]) (by simp [String.append_assoc]),
        g (process ++ " BCL m1+") (by simp [String.append_assoc]) (by simp [String.append_assoc]),
        g ("m_" ++ pd.1) (by rw [String.append_assoc]; exact hm _ (.inl rfl) _) (by rw [String.append_assoc]; exact hm _ (.inl rfl) _),
        g ("m_" ++ pd.2) (by rw [String.append_assoc]; exact hm _ (.inr rfl) _) (by rw [String.append_assoc]; exact hm _ (.inr rfl) _)]
      simp only [bszVPar_congr h]
  refine ⟨first, fun q2 par F par' h => ?_⟩
  have hs : SameBut (process ++ " BSZ") par' par := by
    obtain ⟨pd, h0, h⟩ := fbind h
    obtain ⟨m0, -, h⟩ := fbind h
    obtain ⟨m1m, -, h⟩ := fbind h
    obtain ⟨m1p, -, h⟩ := fbind h
    obtain ⟨mB, hB, h⟩ := fbind h
    obtain ⟨mV, hV, h⟩ := fbind h
    obtain ⟨q, hq, h⟩ := fbind h
    obtain ⟨A0, h1, h⟩ := fbind h
    obtain ⟨A1, h2, h⟩ := fbind h
    obtain ⟨A12, h3, h⟩ := fbind h
    obtain ⟨V, h4, h⟩ := fbind h
    obtain ⟨T1, h5, h⟩ := fbind h
    obtain ⟨T2, h6, h⟩ := fbind h
    obtain ⟨T23, h7, h⟩ := fbind h
    cases h
    exact (bszVPar_spec hq).1
  exact ⟨hs, fun q2' => first q2' _ _ hs⟩

/-- **C104**: the arrays of powers of `z` stop at the square: with `n > 3` coefficients the BSZ and the simplified series expansions never return a
value. -/
theorem C104_orders (par : Par) (n : ℕ) (hn : 3 < n) :
    (∀ process q2 F, bszVFF process q2 par n ≠ .ok F) ∧ (∀ process q2 F, sseFF process q2 par n ≠ .ok F) ∧
    (∀ process q2 F, lambdabFF process q2 par n ≠ .ok F) ∧ (∀ proc process q2 t0 F, bszFF proc process q2 par n t0 ≠ .ok F) := by
  have hd : ∀ (a zs : List ℝ) d, a.length = n → zs.length = 3 → dot a (zs.take n) = .ok d → False := by
    intro a zs d ha hz h
    unfold dot at h
    rw [if_neg (by rw [List.length_take]; omega)] at h
    cases h
  have hb : ∀ mB mP q2 t0 zs, zsBSZ mB mP q2 t0 = .ok zs → zs.length = 3 := by
    intro mB mP q2 t0 zs h
    obtain ⟨x, -, h⟩ := fbind h
    obtain ⟨y, -, h⟩ := fbind h
    cases h; rfl
  have hc : ∀ mB mP q2 t0 zs, zsSSE mB mP q2 t0 = .ok zs → zs.length = 3 := by
    intro mB mP q2 t0 zs h
    obtain ⟨x, -, h⟩ := fbind h
    cases h; rfl
  refine ⟨?_, ?_, ?_, ?_⟩
  · intro process q2 F h
    obtain ⟨pd, h0, h⟩ := fbind h
    obtain ⟨m0, -, h⟩ := fbind h
    obtain ⟨m1m, -, h⟩ := fbind h
    obtain ⟨m1p, -, h⟩ := fbind h
    obtain ⟨mB, hB, h⟩ := fbind h
    obtain ⟨mV, hV, h⟩ := fbind h
    obtain ⟨q, hq, h⟩ := fbind h
    obtain ⟨A0, h1, h⟩ := fbind h
    obtain ⟨a, g1, h1⟩ := fbind h1
    obtain ⟨p, g2, h1⟩ := fbind h1
    obtain ⟨zs, g3, h1⟩ := fbind h1
    obtain ⟨d, g4, h1⟩ := fbind h1
    exact hd _ _ _ (by rw [coeffs_length g1, List.length_range]) (hb _ _ _ _ _ g3) g4
  · intro process q2 F h
    obtain ⟨pd, h0, h⟩ := fbind h
    obtain ⟨mB, hB, h⟩ := fbind h
    obtain ⟨mV, hV, h⟩ := fbind h
    obtain ⟨A0, h1, h⟩ := fbind h
    obtain ⟨a, g1, h1⟩ := fbind h1
    obtain ⟨p, g2, h1⟩ := fbind h1
    obtain ⟨zs, g3, h1⟩ := fbind h1
    obtain ⟨d, g4, h1⟩ := fbind h1
    have : a.length = n := by
      have aux : ∀ (l : List ℕ) (r : List ℝ) (pre : String), coeffsSSE par pre l = .ok r → r.length = l.length := by
        intro l
        induction l with
        | nil => intro r pre h; cases h; rfl
        | cons j l ih =>
          intro r pre h
          obtain ⟨v, h1, h⟩ := fbind h
          obtain ⟨s, h2, h⟩ := fbind h
          cases h
          simp [ih _ _ h2]
      rw [aux _ _ _ g1, List.length_range]
    exact hd _ _ _ this (hc _ _ _ _ _ g3) g4
  · intro process q2 F h
    unfold lambdabFF at h
    split_ifs at h with hp
    obtain ⟨mX, -, h⟩ := fbind h
    obtain ⟨mP, -, h⟩ := fbind h
    obtain ⟨x, -, h⟩ := fbind h
    obtain ⟨y, -, h⟩ := fbind h
    obtain ⟨mL, -, h⟩ := fbind h
    obtain ⟨mB, -, h⟩ := fbind h
    obtain ⟨A0, h1, h⟩ := fbind h
    obtain ⟨a, g1, h1⟩ := fbind h1
    obtain ⟨p, g2, h1⟩ := fbind h1
    obtain ⟨zs, g3, h1⟩ := fbind h1
    obtain ⟨d, g4, h1⟩ := fbind h1
    exact hd _ _ _ (by rw [coeffs_length g1, List.length_range]) (hc _ _ _ _ _ g3) g4
  · intro proc process q2 t0 F h
    obtain ⟨pd, h0, h⟩ := fbind h
    obtain ⟨mpl, -, h⟩ := fbind h
    obtain ⟨m0, -, h⟩ := fbind h
    obtain ⟨mB, -, h⟩ := fbind h
    obtain ⟨mP, -, h⟩ := fbind h
    obtain ⟨ap, h5, h⟩ := fbind h
    obtain ⟨aT, h6, h⟩ := fbind h
    obtain ⟨a00, h7, h⟩ := fbind h
    obtain ⟨r, h8, h⟩ := fbind h
    obtain ⟨fp, g1, h⟩ := fbind h
    obtain ⟨p, e1, g1⟩ := fbind g1
    obtain ⟨zs, e2, g1⟩ := fbind g1
    obtain ⟨d, e3, g1⟩ := fbind g1
    exact hd _ _ _ (by rw [coeffs_length h5, List.length_range]) (hb _ _ _ _ _ e2) e3

/-! ## `Λb → Λ` -/

theorem z_num_self {mB mP t v : ℝ} (h : z mB mP t (.num t) = .ok v) : v = 0 := by
  obtain ⟨t', h1, h⟩ := fbind h
  cases h1
  obtain ⟨a, h2, h⟩ := fbind h
  obtain ⟨b, h3, h⟩ := fbind h
  rw [h2] at h3
  cases h3
  unfold pyDiv at h
  split_ifs at h
  cases h
  simp

theorem lambdabTerm_endpoint {par : Par} {pre i : String} {m mB mP t v : ℝ} {n : ℕ} (hn : 0 < n)
    (h : lambdabTerm par pre i m mB mP t t n = .ok v) :
    ∃ p a, poleV m t = .ok p ∧ par (pre ++ " a" ++ "0" ++ "_" ++ i) = some a ∧ v = p * a := by
  obtain ⟨a, h1, h⟩ := fbind h
  obtain ⟨p, h2, h⟩ := fbind h
  obtain ⟨zs, h3, h⟩ := fbind h
  obtain ⟨d, h4, h⟩ := fbind h
  cases h
  obtain ⟨x, l, rfl, e1⟩ := head_coeff hn h1
  refine ⟨p, x, h2, e1, ?_⟩
  obtain ⟨Z, g, h3⟩ := fbind h3
  obtain rfl := z_num_self g
  cases h3
  unfold dot at h4
  split_ifs at h4 with hl
  cases h4
  rcases n with _ | _ | _ | n
  · omega
  · simp
  · rcases l with _ | ⟨b, l⟩ <;> simp
  · rcases l with _ | ⟨b, _ | ⟨c, l⟩⟩ <;> simp

/-- **C104**: the `Λb → Λ` form factors fulfil the end point relations `f^A_⊥ = f^A_0` and `f^{T5}_⊥ = f^{T5}_0` at `q² = (m_Λb - m_Λ)²`, for every `n ≥ 1` and
all parameters. -/
theorem C104_lambdab_endpoint (process : String) (par par' : Par) (n : ℕ) (hn : 0 < n) (F : FFL) (mLb mX : ℝ)
    (hL : par "m_Lambdab" = some mLb) (hX : par "m_Lambda" = some mX)
    (h : lambdabFF process ((mLb - mX) ^ 2) par n = .ok (F, par')) : F.fAperp = F.fA0 ∧ F.fT5perp = F.fT50 := by
  unfold lambdabFF at h
  split_ifs at h with hp
  subst hp
  obtain ⟨mX', e1, h⟩ := fbind h
  obtain ⟨mP, e2, h⟩ := fbind h
  obtain ⟨a, e3, h⟩ := fbind h
  obtain ⟨b, e4, h⟩ := fbind h
  obtain ⟨mL', e5, h⟩ := fbind h
  obtain ⟨mB, e6, h⟩ := fbind h
  have e1 := get_some e1
  have e5 := get_some e5
  have e3 := get_some e3
  have e4 := get_some e4
  rw [put_ne _ _ (by simp), put_ne _ _ (by simp), hL] at e5
  rw [hX] at e1
  cases e1; cases e5
  obtain ⟨fA0, h1, h⟩ := fbind h
  obtain ⟨fAperp, h2, h⟩ := fbind h
  obtain ⟨fAt, -, h⟩ := fbind h
  obtain ⟨fT0, -, h⟩ := fbind h
  obtain ⟨fT50, h5, h⟩ := fbind h
  obtain ⟨fT5perp, h6, h⟩ := fbind h
  obtain ⟨fTperp, -, h⟩ := fbind h
  obtain ⟨fV0, -, h⟩ := fbind h
  obtain ⟨fVperp, -, h⟩ := fbind h
  obtain ⟨fVt, -, h⟩ := fbind h
  cases h
  obtain ⟨p1, a1, x1, y1, z1⟩ := lambdabTerm_endpoint hn h1
  obtain ⟨p2, a2, x2, y2, z2⟩ := lambdabTerm_endpoint hn h2
  obtain ⟨p5, a5, x5, y5, z5⟩ := lambdabTerm_endpoint hn h5
  obtain ⟨p6, a6, x6, y6, z6⟩ := lambdabTerm_endpoint hn h6
  rw [x1] at x2; rw [x5] at x6
  cases x2; cases x6
  refine ⟨?_, ?_⟩
  · show fAperp = fA0
    rw [z1, z2]
    congr 1
    have w1 : Par.put (Par.put par ("Lambdab->Lambda" ++ " SSE" ++ " a0_fAperp") a) ("Lambdab->Lambda" ++ " SSE" ++ " a0_fT5perp") b
        ("Lambdab->Lambda" ++ " SSE" ++ " a" ++ "0" ++ "_" ++ "fAperp") = some a := by
      rw [put_ne _ _ (by simp)]; exact put_same _ _ _
    rw [w1] at y2
    rw [put_ne _ _ (by simp), put_ne _ _ (by simp)] at y1
    have e3' : par ("Lambdab->Lambda" ++ " SSE" ++ " a" ++ "0" ++ "_" ++ "fA0") = some a := e3
    rw [e3'] at y1
    exact (Option.some.inj y2).symm.trans (Option.some.inj y1)
  · show fT5perp = fT50
    rw [z5, z6]
    congr 1
    have w1 : Par.put (Par.put par ("Lambdab->Lambda" ++ " SSE" ++ " a0_fAperp") a) ("Lambdab->Lambda" ++ " SSE" ++ " a0_fT5perp") b
        ("Lambdab->Lambda" ++ " SSE" ++ " a" ++ "0" ++ "_" ++ "fT5perp") = some b := put_same _ _ _
    rw [w1] at y6
    rw [put_ne _ _ (by simp)] at y5
    have e4' : Par.put par ("Lambdab->Lambda" ++ " SSE" ++ " a0_fAperp") a ("Lambdab->Lambda" ++ " SSE" ++ " a" ++ "0" ++ "_" ++ "fT50") = some b := e4
    rw [e4'] at y5
    exact (Option.some.inj y6).symm.trans (Option.some.inj y5)

/-! ## The hypotheses can be met -/

/-- Parameters for the witnesses: heavy masses 3 (`Λb`: 4), everything else 1. -/
noncomputable def parGood : Par := fun k =>
  if k = "m_Lambdab" then some 4 else
  if k = "m_B+" ∨ k = "m_B0" ∨ k = "m_Bs" ∨ k = "m_D0" then some 3 else some 1

theorem good_z (t0 : T0) (ht : t0.val ((3 - 1) ^ 2) ((3 + 1) ^ 2) < (3 + 1) ^ 2) (q2 : ℝ) (hq : q2 ≤ 16) :
    ∃ v, z 3 1 q2 t0 = .ok v := by
  obtain ⟨v, hv, -⟩ := (C104_z (mB := 3) (mM := 1) (by norm_num) (by norm_num) t0 ht).1 q2 (by linarith)
  exact ⟨v, hv⟩

theorem poleV_zero' {m : ℝ} (h : m ≠ 0) : poleV m 0 = .ok 1 := by
  unfold poleV
  rw [Mixing.pyDiv_ne (pow_ne_zero 2 h), fok, zero_div, sub_zero, Mixing.pyDiv_ne one_ne_zero, div_one]

theorem good_bszTerm (m : ℝ) (l : List ℝ) (n : ℕ) (hl : l.length = n) (hn : n ≤ 3) : ∃ v, bszTerm m 3 1 l 0 n .none = .ok v := by
  obtain ⟨v, hv⟩ := good_z .none (tOpt_lt (by norm_num) (by norm_num)) 0 (by norm_num)
  unfold bszTerm zsBSZ
  rw [pole_zero, fok, hv, fok, fok]
  show ∃ w, (dot _ _ >>= _) = _
  unfold dot
  rw [if_pos (by simp; omega)]
  exact ⟨_, rfl⟩

/-- `B → P` and `D → P` form factors exist for concrete parameters. -/
theorem C104_nonvacuous_P : (∃ F, bszFF processP "B->K" 0 parGood 3 .none = .ok F) ∧
    (∃ F, bszFF processD "D->K" 0 parGood 2 .none = .ok F) := by
  constructor
  · have c : ∀ i, i = "f+" ∨ i = "fT" → coeffs parGood ("B->K" ++ " BSZ a") i (List.range 3) = .ok [1, 1, 1] := by
      intro i hi
      refine coeffs_of (fun _ => 1) fun j hj => ?_
      have : j < 3 := List.mem_range.1 hj
      rcases hi with rfl | rfl <;> interval_cases j <;> simp [parGood, repr0, repr1, repr2]
    have c0 : coeffs parGood ("B->K" ++ " BSZ a") "f0" ((List.range 3).drop 1) = .ok [1, 1] := by
      refine coeffs_of (fun _ => 1) fun j hj => ?_
      have : j < 3 := List.mem_range.1 (List.mem_of_mem_drop hj)
      interval_cases j <;> simp [parGood, repr0, repr1, repr2]
    obtain ⟨x, hx⟩ := good_bszTerm 1 [1, 1, 1] 3 rfl le_rfl
    have hp : processP "B->K" = .ok ("B0", "K0") := rfl
    unfold bszFF
    rw [hp, fok, get_of (v := 1) (by simp [parGood]), fok, get_of (v := 1) (by simp [parGood]), fok,
      get_of (v := 3) (by simp [parGood]), fok, get_of (v := 1) (by simp [parGood]), fok, c _ (.inl rfl), fok, c _ (.inr rfl), fok,
      get_of (v := 1) (by simp [parGood]), fok, c0, fok, hx, fok, fok]
    exact ⟨_, rfl⟩
  · have c : ∀ i, i = "f+" ∨ i = "fT" → coeffs parGood ("D->K" ++ " BSZ a") i (List.range 2) = .ok [1, 1] := by
      intro i hi
      refine coeffs_of (fun _ => 1) fun j hj => ?_
      have : j < 2 := List.mem_range.1 hj
      rcases hi with rfl | rfl <;> interval_cases j <;> simp [parGood, repr0, repr1, repr2]
    have c0 : coeffs parGood ("D->K" ++ " BSZ a") "f0" ((List.range 2).drop 1) = .ok [1] := by
      refine coeffs_of (fun _ => 1) fun j hj => ?_
      have : j < 2 := List.mem_range.1 (List.mem_of_mem_drop hj)
      interval_cases j <;> simp [parGood, repr0, repr1, repr2]
    obtain ⟨x, hx⟩ := good_bszTerm 1 [1, 1] 2 rfl (by norm_num)
    have hp : processD "D->K" = .ok ("D0", "K+") := rfl
    unfold bszFF
    rw [hp, fok, get_of (v := 1) (by simp [parGood]), fok, get_of (v := 1) (by simp [parGood]), fok,
      get_of (v := 3) (by simp [parGood]), fok, get_of (v := 1) (by simp [parGood]), fok, c _ (.inl rfl), fok, c _ (.inr rfl), fok,
      get_of (v := 1) (by simp [parGood]), fok, c0, fok, hx, fok, fok]
    exact ⟨_, rfl⟩

theorem good_bszVTerm (par : Par) (pre i : String) (m : ℝ) (hm : m ≠ 0) (h0 : ∃ v, par (pre ++ " a" ++ "0" ++ "_" ++ i) = some v)
    (h1 : ∃ v, par (pre ++ " a" ++ "1" ++ "_" ++ i) = some v) : ∃ v, bszVTerm par pre i m 3 1 0 2 = .ok v := by
  obtain ⟨v, hv⟩ := good_z .none (tOpt_lt (by norm_num) (by norm_num)) 0 (by norm_num)
  obtain ⟨x, hx⟩ := h0
  obtain ⟨y, hy⟩ := h1
  have c : coeffs par (pre ++ " a") i (List.range 2) = .ok [x, y] := by
    refine coeffs_of (fun j => if j = 0 then x else y) fun j hj => ?_
    have : j < 2 := List.mem_range.1 hj
    interval_cases j
    · exact hx
    · exact hy
  unfold bszVTerm zsBSZ
  rw [c, fok, poleV_zero' hm, fok, hv, fok, fok]
  show ∃ w, (dot [x, y] (List.take 2 [1, v - v, (v - v) ^ 2]) >>= fun d => Except.ok (1 * d)) = Except.ok w
  unfold dot
  rw [if_pos (by simp)]
  exact ⟨_, rfl⟩

/-- `B → K*` form factors exist for concrete parameters. -/
theorem C104_nonvacuous_V : ∃ F, bszVFF "B->K*" 0 parGood 2 = .ok F := by
  have hp : processV "B->K*" = .ok ("B0", "K*0") := rfl
  have hq : bszVPar parGood ("B->K*" ++ " BSZ") 3 1 =
      .ok ((parGood.put ("B->K*" ++ " BSZ" ++ " a0_A12") (1 / (8 * 3 * 1 / (3 ^ 2 - 1 ^ 2)))).put ("B->K*" ++ " BSZ" ++ " a0_T2") 1) := by
    unfold bszVPar
    rw [get_of (v := 1) (by simp [parGood]), fok, Mixing.pyDiv_ne (by norm_num), fok, Mixing.pyDiv_ne (by norm_num), fok]
    show (Par.get _ _ >>= _) = _
    rw [get_of (v := 1) (by simp [parGood, Par.put]), fok]
    rfl
  have key : ∀ i, i ∈ ["A0", "A1", "A12", "V", "T1", "T2", "T23"] → ∃ v, bszVTerm ((parGood.put ("B->K*" ++ " BSZ" ++ " a0_A12")
      (1 / (8 * 3 * 1 / (3 ^ 2 - 1 ^ 2)))).put ("B->K*" ++ " BSZ" ++ " a0_T2") 1) ("B->K*" ++ " BSZ") i 1 3 1 0 2 = .ok v := by
    intro i hi
    refine good_bszVTerm _ _ _ _ one_ne_zero ?_ ?_ <;>
    · simp only [List.mem_cons, List.not_mem_nil, or_false] at hi
      rcases hi with rfl | rfl | rfl | rfl | rfl | rfl | rfl <;> simp [parGood, Par.put]
  obtain ⟨x1, h1⟩ := key "A0" (by simp)
  obtain ⟨x2, h2⟩ := key "A1" (by simp)
  obtain ⟨x3, h3⟩ := key "A12" (by simp)
  obtain ⟨x4, h4⟩ := key "V" (by simp)
  obtain ⟨x5, h5⟩ := key "T1" (by simp)
  obtain ⟨x6, h6⟩ := key "T2" (by simp)
  obtain ⟨x7, h7⟩ := key "T23" (by simp)
  unfold bszVFF
  rw [hp, fok, get_of (v := 1) (by simp [parGood]), fok, get_of (v := 1) (by simp [parGood]), fok, get_of (v := 1) (by simp [parGood]), fok,
    get_of (v := 3) (by simp [parGood]), fok, get_of (v := 1) (by simp [parGood]), fok, hq, fok, h1, fok, h2, fok, h3, fok, h4, fok, h5, fok,
    h6, fok, h7, fok]
  exact ⟨_, rfl⟩

end Verif.FormFactors
