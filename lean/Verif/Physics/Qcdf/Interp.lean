import Verif.Physics.Qcdf.Claims
import Verif.Physics.Bvll.Assembly
/-!
# The interpolated version of the QCD factorisation corrections

`flavio/physics/bdecays/bvll/qcdf_interpolate.py` and `_qcdf_interpolate_write.py`.  The data file is a dictionary of arrays of
shape `(90, 3)`; its keys are those of the file in the repository, the numbers are an argument.  `scipy.interpolate.interp1d` is
modelled as the piecewise linear interpolation it is documented to be (with `ValueError` outside of the range).  Amplitudes are
triples in the order `0`, `pl`, `mi`.
-/
set_option linter.unusedVariables false
set_option linter.unusedSimpArgs false
namespace Verif.Qcdf
open Verif.Py Verif Verif.Running Complex
open Verif.MatrixElements (Wc)
open Verif.Angular (Trans AmpV transToHel)

/-- `q2_arr = np.arange(0 + 1e-6, 9 + 1e-6, 0.1)`: 90 points.  /repo/flavio/physics/bdecays/bvll/qcdf_interpolate.py:22,
/repo/flavio/physics/bdecays/bvll/_qcdf_interpolate_write.py:13. -/
noncomputable def node (i : ℕ) : ℝ := 1e-6 + i * 0.1

/-- `scipy.interpolate.interp1d(q2_arr, y)(q2)`.  /repo/flavio/physics/bdecays/bvll/qcdf_interpolate.py:29. -/
noncomputable def interp (y : ℕ → ℂ) (q2 : ℝ) : Except PyErr ℂ :=
  if q2 < node 0 ∨ node 89 < q2 then .error .valueError
  else
    let hi := min (max 1 ⌈(q2 - node 0) / 0.1⌉₊) 89
    let lo := hi - 1
    .ok ((y hi - y lo) / (node hi - node lo : ℝ) * (q2 - node lo : ℝ) + y lo)

/-- The keys of the data file.  /repo/flavio/physics/data/qcdf_interpolate/qcdf_interpolate.npz. -/
def shipped : List String :=
  ["B0->K*0 all", "B0->K*0 WA", "B0->K*0 O8", "B0->K*0 QSS", "B0->K*0 CP conjugate all", "B0->K*0 CP conjugate WA",
   "B0->K*0 CP conjugate O8", "B0->K*0 CP conjugate QSS", "B+->K*+ all", "B+->K*+ WA", "B+->K*+ O8", "B+->K*+ QSS",
   "B+->K*+ CP conjugate all", "B+->K*+ CP conjugate WA", "B+->K*+ CP conjugate O8", "B+->K*+ CP conjugate QSS",
   "Bs->phi all", "Bs->phi WA", "Bs->phi O8", "Bs->phi QSS", "Bs->phi CP conjugate all", "Bs->phi CP conjugate WA",
   "Bs->phi CP conjugate O8", "Bs->phi CP conjugate QSS", "Bs->K*0 all", "Bs->K*0 WA", "Bs->K*0 O8", "Bs->K*0 QSS",
   "Bs->K*0 CP conjugate all", "Bs->K*0 CP conjugate WA", "Bs->K*0 CP conjugate O8", "Bs->K*0 CP conjugate QSS"]

/-- `array_name`.  /repo/flavio/physics/bdecays/bvll/qcdf_interpolate.py:37-41. -/
def arrayName (B V : String) (cp : Bool) (contribution : String) : String :=
  if cp then B ++ "->" ++ V ++ " CP conjugate " ++ contribution else B ++ "->" ++ V ++ " " ++ contribution

/-- The rows of an array: columns `pl`, `mi`, `0`, in this order.
/repo/flavio/physics/bdecays/bvll/_qcdf_interpolate_write.py:50-59. -/
structure Row where
  pl : ℂ
  mi : ℂ
  ze : ℂ

/-- `helicity_amps_qcdf` of the interpolated version: the dictionary of interpolating functions is `data` on the keys of the
file; `par` is not used.  /repo/flavio/physics/bdecays/bvll/qcdf_interpolate.py:31-48. -/
noncomputable def helInterp (data : String → ℕ → Row) (q2 : ℝ) (B V : String) (cp : Bool) (contribution : String) : Except PyErr (ℂ × ℂ × ℂ) :=
  let name := arrayName B V cp contribution
  if name ∈ shipped then do
    let a0 ← interp (fun i => (data name i).pl) q2
    let a1 ← interp (fun i => (data name i).mi) q2
    let a2 ← interp (fun i => (data name i).ze) q2
    pure (a2 / (Real.sqrt q2 : ℝ), a0 / (q2 : ℝ), a1 / (q2 : ℝ))
  else .error .keyError

/-- `ha_qcdf_interpolate_function(B, V)`: neither the Wilson coefficients nor the parameters are used.
/repo/flavio/physics/bdecays/bvll/nonfactorizable.py:35-39. -/
noncomputable def haInterp {W : Type} {Q : Type} (data : String → ℕ → Row) (B V : String) (wcObj : W) (par : Q) (q2 : ℝ) (cp : Bool) : Except PyErr (ℂ × ℂ × ℂ) :=
  helInterp data q2 B V cp "all"

/-- The array that is written: the amplitudes at the nodes with the poles in `q²` divided out; `amp q2` are the amplitudes
`0`, `pl`, `mi`.  /repo/flavio/physics/bdecays/bvll/_qcdf_interpolate_write.py:48-64. -/
noncomputable def writeArr (amp : ℝ → ℂ × ℂ × ℂ) (i : ℕ) : Row :=
  ⟨(node i : ℝ) * (amp (node i)).2.1, (node i : ℝ) * (amp (node i)).2.2, (Real.sqrt (node i) : ℝ) * (amp (node i)).1⟩

/-- `contributions_dict`.  /repo/flavio/physics/bdecays/bvll/_qcdf_interpolate_write.py:27-32. -/
def contributions : List (String × Incl) :=
  [("all", ⟨true, true, true⟩), ("WA", ⟨true, false, false⟩), ("O8", ⟨false, true, false⟩), ("QSS", ⟨false, false, true⟩)]

/-! ## Facts about the nodes -/

theorem node_lt {i j : ℕ} (h : i < j) : node i < node j := by
  unfold node
  have : (i : ℝ) < j := by exact_mod_cast h
  nlinarith

theorem node_pos (i : ℕ) : 0 < node i := by unfold node; positivity

theorem node_succ (i : ℕ) : node (i + 1) - node i = 0.1 := by unfold node; push_cast; ring

/-- In the range the interpolation is a convex combination of two neighbouring values. -/
theorem interp_range (q2 : ℝ) (h0 : node 0 ≤ q2) (h1 : q2 ≤ node 89) :
    ∃ i t, i < 89 ∧ 0 ≤ t ∧ t ≤ 1 ∧ q2 = (1 - t) * node i + t * node (i + 1) ∧
      ∀ y : ℕ → ℂ, interp y q2 = .ok (((1 - t : ℝ) : ℂ) * y i + (t : ℂ) * y (i + 1)) := by
  have hn : ¬ (q2 < node 0 ∨ node 89 < q2) := by push Not; exact ⟨h0, h1⟩
  set x := (q2 - node 0) / 0.1 with hx
  have hx0 : 0 ≤ x := by apply div_nonneg <;> [linarith; norm_num]
  have hx1 : x ≤ 89 := by
    rw [hx, div_le_iff₀ (by norm_num)]
    have : node 89 = node 0 + 89 * 0.1 := by unfold node; push_cast; ring
    linarith
  set m := ⌈x⌉₊ with hm
  have hm1 : m ≤ 89 := by rw [hm]; exact Nat.ceil_le.2 (by exact_mod_cast hx1)
  obtain ⟨i, hi⟩ : ∃ i, min (max 1 m) 89 = i + 1 := by
    have : 1 ≤ min (max 1 m) 89 := by omega
    exact ⟨_, (Nat.sub_add_cancel this).symm⟩
  have hq : q2 = node 0 + x * 0.1 := by rw [hx]; field_simp; ring
  have hit : (i : ℝ) ≤ x ∧ x ≤ i + 1 := by
    rcases Nat.eq_zero_or_pos m with hz | hp
    · have : x ≤ 0 := by have := Nat.le_ceil x; rw [← hm, hz] at this; exact_mod_cast this
      have hi0 : i = 0 := by omega
      rw [hi0]; push_cast; constructor <;> linarith
    · have hi0 : i + 1 = m := by omega
      have a := Nat.le_ceil x
      have b := Nat.ceil_lt_add_one hx0
      rw [← hm, ← hi0] at a b
      push_cast at a b
      constructor <;> linarith
  refine ⟨i, x - i, by omega, by linarith, by linarith, ?_, ?_⟩
  · rw [hq]; unfold node; push_cast; ring
  · intro y
    unfold interp
    rw [if_neg hn]
    simp only [← hx, ← hm, hi, Nat.add_sub_cancel, node_succ]
    congr 1
    have : (q2 - node i) = (x - i) * 0.1 := by rw [hq]; unfold node; push_cast; ring
    rw [this]
    push_cast
    have h01 : (0.1 : ℂ) ≠ 0 := by norm_num
    field_simp
    ring

theorem interp_out (y : ℕ → ℂ) (q2 : ℝ) (h : q2 < node 0 ∨ node 89 < q2) : interp y q2 = .error .valueError := by
  unfold interp; rw [if_pos h]

theorem node0 : node 0 = 1e-6 := by unfold node; norm_num
theorem node89 : node 89 = 8.900001 := by unfold node; norm_num

/-! ## The claims -/

/-- The four names of contributions. (Specification.) -/
def Names : List String := ["all", "WA", "O8", "QSS"]

theorem shipped_mem (B V : String) (h : (B, V) ∈ Decays) (cp : Bool) (n : String) (hn : n ∈ Names) : arrayName B V cp n ∈ shipped := by
  have : ∀ d ∈ Decays, ∀ cp : Bool, ∀ n ∈ Names, arrayName d.1 d.2 cp n ∈ shipped := by decide +kernel
  exact this (B, V) h cp n hn

/-- **C141**: for the four decays, the decay and its conjugate and each contribution the interpolated amplitudes are defined
exactly for `10⁻⁶ GeV² ≤ q² ≤ 8.900001 GeV²`; outside they are a `ValueError`. -/
theorem C141_range (data : String → ℕ → Row) (B V : String) (h : (B, V) ∈ Decays) (cp : Bool) (n : String) (hn : n ∈ Names) (q2 : ℝ) :
    (1e-6 ≤ q2 ∧ q2 ≤ 8.900001 → ∃ v, helInterp data q2 B V cp n = .ok v) ∧
    (¬ (1e-6 ≤ q2 ∧ q2 ≤ 8.900001) → helInterp data q2 B V cp n = .error .valueError) := by
  have hs := shipped_mem B V h cp n hn
  rw [← node0, ← node89]
  constructor
  · rintro ⟨h0, h1⟩
    obtain ⟨i, t, _, _, _, _, hi⟩ := interp_range q2 h0 h1
    simp only [helInterp, if_pos hs, hi, Bind.bind, Except.bind]
    exact ⟨_, rfl⟩
  · intro hr
    have : q2 < node 0 ∨ node 89 < q2 := by
      by_contra hc; push Not at hc; exact hr hc
    simp only [helInterp, if_pos hs, interp_out _ q2 this, Bind.bind, Except.bind]

/-- **C141** (finding): the interval of interpolation is described as reaching from 0 to 9 GeV²; at 8.95 GeV² it is left. -/
theorem C141_finding_range (data : String → ℕ → Row) (B V : String) (h : (B, V) ∈ Decays) (cp : Bool) (n : String) (hn : n ∈ Names) :
    helInterp data 8.95 B V cp n = .error .valueError ∧ helInterp data 0 B V cp n = .error .valueError :=
  ⟨(C141_range data B V h cp n hn _).2 (by norm_num), (C141_range data B V h cp n hn _).2 (by norm_num)⟩

/-- **C141**: the caller never leaves the range: for `q²` above the threshold of a pair of electrons (or of any lepton of at
least 0.5 MeV) the spectator scattering is defined for every dilepton mass: below 8.9 GeV² the interpolation is in its range,
and above it is not used. -/
theorem C141_caller_in_range (data : String → ℕ → Row) (d : Bvll.Inp) (B V : String) (h : (B, V) ∈ Decays) (cp : Bool) (ml q2 : ℝ)
    (hm : 0.0005 ≤ ml) (hq : 4 * ml ^ 2 ≤ q2) :
    (q2 < 8.9 → ∃ v, helInterp data q2 B V cp "all" = .ok v) ∧
    (8.9 ≤ q2 → Bvll.getSS d B V q2 cp = .ok (0, 0, 0)) ∧ ∃ v, Bvll.getSS d B V q2 cp = .ok v := by
  refine ⟨fun hl => (C141_range data B V h cp "all" (by decide) q2).1 ⟨?_, ?_⟩, fun hl => ?_, ?_⟩
  · norm_num at hm ⊢; nlinarith
  · norm_num at hl ⊢; linarith
  · unfold Bvll.getSS; rw [if_pos hl]
  · have : (B, V) ∈ Bvll.ssRegistered := by
      have : ∀ x ∈ Decays, x ∈ Bvll.ssRegistered := by decide
      exact this _ h
    unfold Bvll.getSS
    split
    · exact ⟨_, rfl⟩
    · exact ⟨_, rfl⟩

/-- **C141** (finding): two of the six registered decays have no data: `B⁰ → ρ⁰` and `B⁺ → ρ⁺` are a `KeyError` for every `q²`. -/
theorem C141_rho_missing (data : String → ℕ → Row) (cp : Bool) (n : String) (hn : n ∈ Names) (q2 : ℝ) :
    helInterp data q2 "B0" "rho0" cp n = .error .keyError ∧ helInterp data q2 "B+" "rho+" cp n = .error .keyError ∧
    (("B0", "rho0") : String × String) ∈ Bvll.ssRegistered ∧ (("B+", "rho+") : String × String) ∈ Bvll.ssRegistered := by
  have h : ∀ n ∈ Names, ∀ cp : Bool, arrayName "B0" "rho0" cp n ∉ shipped ∧ arrayName "B+" "rho+" cp n ∉ shipped := by decide +kernel
  obtain ⟨h1, h2⟩ := h n hn cp
  exact ⟨if_neg h1, if_neg h2, by decide, by decide⟩

/-- **C141**: writing and reading back is exact at the nodes: an array written from given amplitudes gives them back at each of
the 90 values of `q²`. -/
theorem C141_roundtrip (data : String → ℕ → Row) (amp : ℝ → ℂ × ℂ × ℂ) (B V : String) (h : (B, V) ∈ Decays) (cp : Bool) (n : String) (hn : n ∈ Names)
    (hd : data (arrayName B V cp n) = writeArr amp) (j : ℕ) (hj : j < 90) :
    helInterp data (node j) B V cp n = .ok (amp (node j)) := by
  have hs := shipped_mem B V h cp n hn
  have h0 : node 0 ≤ node j := by rcases Nat.eq_zero_or_pos j with rfl | hp; exact le_rfl; exact (node_lt hp).le
  have h1 : node j ≤ node 89 := by rcases Nat.lt_or_ge j 89 with hp | hp; exact (node_lt hp).le; (have : j = 89 := by omega); rw [this]
  obtain ⟨i, t, hi89, ht0, ht1, hq, hi⟩ := interp_range (node j) h0 h1
  have key : ∀ y : ℕ → ℂ, interp y (node j) = .ok (y j) := by
    intro y
    rw [hi y]
    congr 1
    have hx : (j : ℝ) = i + t := by unfold node at hq; push_cast at hq; linarith
    have hle : i ≤ j := by
      have : (i : ℝ) ≤ j := by linarith
      exact_mod_cast this
    have hge : j ≤ i + 1 := by
      have : (j : ℝ) ≤ (i + 1 : ℕ) := by push_cast; linarith
      exact_mod_cast this
    rcases Nat.eq_or_lt_of_le hle with e | e
    · have : t = 0 := by rw [← e] at hx; linarith
      rw [this, e]; simp
    · have e' : j = i + 1 := by omega
      have : t = 1 := by rw [e'] at hx; push_cast at hx; linarith
      rw [this, ← e']; simp
  have hp : ((node j : ℝ) : ℂ) ≠ 0 := by exact_mod_cast (node_pos j).ne'
  have hsq : ((Real.sqrt (node j) : ℝ) : ℂ) ≠ 0 := by
    have := Real.sqrt_pos.2 (node_pos j)
    exact_mod_cast this.ne'
  simp only [helInterp, if_pos hs, key, Bind.bind, Except.bind, pure, Except.pure, hd, writeArr]
  rw [mul_div_cancel_left₀ _ hp, mul_div_cancel_left₀ _ hp, mul_div_cancel_left₀ _ hsq]

/-- **C141**: between two nodes `q²` times the transverse amplitudes and `√q²` times the longitudinal one are on the straight
line between the values at the nodes, with the same weights for all of them. -/
theorem C141_linear_between (data : String → ℕ → Row) (amp : ℝ → ℂ × ℂ × ℂ) (B V : String) (h : (B, V) ∈ Decays) (cp : Bool) (n : String) (hn : n ∈ Names)
    (hd : data (arrayName B V cp n) = writeArr amp) (q2 : ℝ) (h0 : 1e-6 ≤ q2) (h1 : q2 ≤ 8.900001) :
    ∃ i t v, i < 89 ∧ 0 ≤ t ∧ t ≤ 1 ∧ q2 = (1 - t) * node i + t * node (i + 1) ∧ helInterp data q2 B V cp n = .ok v ∧
      (q2 : ℂ) * v.2.1 = ((1 - t : ℝ) : ℂ) * ((node i : ℝ) * (amp (node i)).2.1) + (t : ℂ) * ((node (i + 1) : ℝ) * (amp (node (i + 1))).2.1) ∧
      (q2 : ℂ) * v.2.2 = ((1 - t : ℝ) : ℂ) * ((node i : ℝ) * (amp (node i)).2.2) + (t : ℂ) * ((node (i + 1) : ℝ) * (amp (node (i + 1))).2.2) ∧
      ((Real.sqrt q2 : ℝ) : ℂ) * v.1 = ((1 - t : ℝ) : ℂ) * ((Real.sqrt (node i) : ℝ) * (amp (node i)).1) + (t : ℂ) * ((Real.sqrt (node (i + 1)) : ℝ) * (amp (node (i + 1))).1) := by
  have hs := shipped_mem B V h cp n hn
  obtain ⟨i, t, hi89, ht0, ht1, hq, hi⟩ := interp_range q2 (by rw [node0]; exact h0) (by rw [node89]; exact h1)
  have hpos : 0 < q2 := lt_of_lt_of_le (by norm_num) h0
  have hp : ((q2 : ℝ) : ℂ) ≠ 0 := by exact_mod_cast hpos.ne'
  have hsq : ((Real.sqrt q2 : ℝ) : ℂ) ≠ 0 := by
    have := Real.sqrt_pos.2 hpos
    exact_mod_cast this.ne'
  have hv : helInterp data q2 B V cp n = .ok
      ((((1 - t : ℝ) : ℂ) * ((Real.sqrt (node i) : ℝ) * (amp (node i)).1) + (t : ℂ) * ((Real.sqrt (node (i + 1)) : ℝ) * (amp (node (i + 1))).1)) / (Real.sqrt q2 : ℝ),
       (((1 - t : ℝ) : ℂ) * (((node i) : ℝ) * (amp (node i)).2.1) + (t : ℂ) * (((node (i + 1)) : ℝ) * (amp (node (i + 1))).2.1)) / (q2 : ℝ),
       (((1 - t : ℝ) : ℂ) * (( (node i) : ℝ) * (amp (node i)).2.2) + (t : ℂ) * (( (node (i + 1)) : ℝ) * (amp (node (i + 1))).2.2)) / (q2 : ℝ)) := by
    simp only [helInterp, if_pos hs, hi, Bind.bind, Except.bind, pure, Except.pure, hd, writeArr]
  exact ⟨i, t, _, hi89, ht0, ht1, hq, hv, mul_div_cancel₀ _ hp, mul_div_cancel₀ _ hp, mul_div_cancel₀ _ hsq⟩

/-- The three amplitudes of the corrections at one value of `q²`, as collected by the script that writes the data.
(Specification.) -/
noncomputable def ampOf (F : Fn) (P : Par) (w : Wc) (B V : String) (scale : ℝ) (rule : ℝ → List (ℝ × ℝ)) (k : Incl) (q2 : ℝ) : ℂ × ℂ × ℂ :=
  match helQcdf F P w B V q2 scale (rule q2) k with
  | .ok (_, H) => (H.zeV, H.plV, H.miV)
  | .error _ => (0, 0, 0)

/-- The contribution switched on by each name.  (Specification of `contributions`.) -/
theorem contributions_spec : contributions.map (·.1) = Names ∧ ∀ c ∈ contributions, c.2.any := by
  refine ⟨rfl, ?_⟩
  intro c hc
  simp only [contributions, List.mem_cons, List.not_mem_nil, or_false] at hc
  rcases hc with rfl | rfl | rfl | rfl <;> simp [Incl.any]

theorem ampOf_eq (F : Fn) (P : Par) (w : Wc) (B V : String) (scale : ℝ) (rule : ℝ → List (ℝ × ℝ)) (h : (B, V) ∈ Decays)
    (q2 : ℝ) (g : Good P q2 (rule q2)) :
    ∃ a b c : ℂ × ℂ × ℂ, a.2.1 = 0 ∧ b.2.1 = 0 ∧ c.2.1 = 0 ∧
      ∀ k : Incl, k.any → ampOf F P w B V scale rule k q2 = (if k.wa then a else 0) + (if k.o8 then b else 0) + (if k.qss then c else 0) := by
  let K : ℂ → ℂ → ℂ × ℂ × ℂ := fun Tp Tl => (-I / 2 * P.pref * (P.mb * (P.mB ^ 2 - q2) ^ 2 / (P.mB ^ 2 * P.mV * Real.sqrt q2) : ℝ) * Tl, 0,
    -2 * I * P.pref * ((P.mB ^ 2 - q2) * P.mb / q2 : ℝ) * Tp)
  refine ⟨K (waPerp P V q2 (rule q2) w) (waPara F P V q2 (rule q2) w), K (o8Perp P q2 (rule q2) w) (o8Para F P V q2 (rule q2) w),
    K (qssPerp F P q2 (rule q2) w) (qssPara F P V q2 scale (rule q2) w), rfl, rfl, rfl, ?_⟩
  intro k hk
  obtain ⟨H, Tp, Tl, hH, hp, hl, h1, _, _, _, _, _, _, _, _, _, _, _, hmi, hze⟩ := C140_helicities F P w B V q2 scale (rule q2) k h g hk
  rw [TPerp_eq F P w B V q2 scale _ k h g.q2_lt hk] at hp
  rw [TPara_eq F P w B V q2 scale _ k h g hk] at hl
  injection hp with hp; injection hl with hl
  unfold ampOf
  rw [hH]
  simp only [h1, hmi, hze, ← hp, ← hl, on, K]
  split <;> split <;> split <;> simp [Prod.ext_iff] <;> (constructor <;> ring)

/-- **C141** (end to end): if the data file holds what the script writes (from the same quadrature nodes for all contributions),
then at every `q²` of the range, not only at the nodes, the interpolated amplitudes are additive: `all` is the sum of `WA`, `O8`
and `QSS`, and the amplitude of positive helicity is exactly zero in each. -/
theorem C141_end_to_end (data : String → ℕ → Row) (F : Fn) (P : Par) (w : Wc) (B V : String) (h : (B, V) ∈ Decays) (cp : Bool) (scale : ℝ)
    (rule : ℝ → List (ℝ × ℝ)) (g : ∀ i < 90, Good P (node i) (rule (node i)))
    (hd : ∀ c ∈ contributions, data (arrayName B V cp c.1) = writeArr (ampOf F P w B V scale rule c.2))
    (q2 : ℝ) (h0 : 1e-6 ≤ q2) (h1 : q2 ≤ 8.900001) :
    ∃ a b c s : ℂ × ℂ × ℂ, helInterp data q2 B V cp "WA" = .ok a ∧ helInterp data q2 B V cp "O8" = .ok b ∧
      helInterp data q2 B V cp "QSS" = .ok c ∧ helInterp data q2 B V cp "all" = .ok s ∧ s = a + b + c ∧
      a.2.1 = 0 ∧ b.2.1 = 0 ∧ c.2.1 = 0 ∧ s.2.1 = 0 := by
  obtain ⟨i, t, hi89, ht0, ht1, hq, hi⟩ := interp_range q2 (by rw [node0]; exact h0) (by rw [node89]; exact h1)
  obtain ⟨a, b, c, ha, hb, hc, hk⟩ := ampOf_eq F P w B V scale rule h (node i) (g i (by omega))
  obtain ⟨a', b', c', ha', hb', hc', hk'⟩ := ampOf_eq F P w B V scale rule h (node (i + 1)) (g (i + 1) (by omega))
  have val : ∀ p ∈ contributions, helInterp data q2 B V cp p.1 = .ok
      ((((1 - t : ℝ) : ℂ) * ((Real.sqrt (node i) : ℝ) * (ampOf F P w B V scale rule p.2 (node i)).1) + (t : ℂ) * ((Real.sqrt (node (i + 1)) : ℝ) * (ampOf F P w B V scale rule p.2 (node (i + 1))).1)) / (Real.sqrt q2 : ℝ),
       (((1 - t : ℝ) : ℂ) * ((node i : ℝ) * (ampOf F P w B V scale rule p.2 (node i)).2.1) + (t : ℂ) * ((node (i + 1) : ℝ) * (ampOf F P w B V scale rule p.2 (node (i + 1))).2.1)) / (q2 : ℝ),
       (((1 - t : ℝ) : ℂ) * ((node i : ℝ) * (ampOf F P w B V scale rule p.2 (node i)).2.2) + (t : ℂ) * ((node (i + 1) : ℝ) * (ampOf F P w B V scale rule p.2 (node (i + 1))).2.2)) / (q2 : ℝ)) := by
    intro p hp
    have hn : p.1 ∈ Names := by rw [← contributions_spec.1]; exact List.mem_map_of_mem hp
    simp only [helInterp, if_pos (shipped_mem B V h cp p.1 hn), hi, Bind.bind, Except.bind, pure, Except.pure, hd p hp, writeArr]
  have e1 := val ("WA", ⟨true, false, false⟩) (by decide)
  have e2 := val ("O8", ⟨false, true, false⟩) (by decide)
  have e3 := val ("QSS", ⟨false, false, true⟩) (by decide)
  have e4 := val ("all", ⟨true, true, true⟩) (by decide)
  rw [hk _ (by simp [Incl.any]), hk' _ (by simp [Incl.any])] at e1 e2 e3 e4
  simp only [Bool.false_eq_true, if_false, if_true, add_zero, zero_add] at e1 e2 e3 e4
  refine ⟨_, _, _, _, e1, e2, e3, e4, ?_, ?_, ?_, ?_, ?_⟩
  · refine Prod.ext ?_ (Prod.ext ?_ ?_) <;> simp only [Prod.fst_add, Prod.snd_add] <;> ring
  · simp only [ha, ha']; simp
  · simp only [hb, hb']; simp
  · simp only [hc, hc']; simp
  · simp only [Prod.fst_add, Prod.snd_add, ha, ha', hb, hb', hc, hc']; simp

/-- **C141** (finding): the interpolated corrections do not react to anything: changing the Wilson coefficients or the
parameters (masses, decay constants, CKM elements) leaves the prediction unchanged. -/
theorem C141_ignores_new_physics {W Q : Type} (data : String → ℕ → Row) (B V : String) (w w' : W) (p p' : Q) (q2 : ℝ) (cp : Bool) :
    haInterp data B V w p q2 cp = haInterp data B V w' p' q2 cp := rfl

/-- **C141**: the script computes the conjugate decay with conjugated parameters but does not conjugate the coefficients; for
real coefficients that do not depend on the phase of the CKM matrix this is what the direct implementation does. -/
theorem C141_conjugate_consistent (F : Fn) (P : Par) (wctot : Par → Wc) (B V : String) (q2 scale : ℝ) (rule : List (ℝ × ℝ))
    (hp : wctot (conjPar P) = wctot P) (hr : conjWc (wctot P) = wctot P) :
    haQcdf F P wctot B V q2 scale rule true = helQcdf F (conjPar P) (wctot P) B V q2 scale rule ⟨true, true, true⟩ := by
  simp only [haQcdf, if_true, hp, hr]

/-- The hypotheses are met: all nodes are below the end point for realistic masses. -/
example : ∀ i < 90, Good ⟨5.28, 0.89, 4.9, 1.7, 0.21, 0, 1, 0.19, 0.2, 0.16, 0.1, 0.1, 0.1, 0.1, 1⟩ (node i) [(0.25, 0.5), (0.75, 0.5)] := by
  intro i hi
  have hi' : (i : ℝ) ≤ 89 := by exact_mod_cast Nat.lt_succ_iff.1 hi
  refine ⟨node_pos i, by norm_num, ?_, ?_⟩
  · unfold node; norm_num; linarith
  · intro n hn
    simp only [List.mem_cons, List.not_mem_nil, or_false] at hn
    rcases hn with rfl | rfl <;> norm_num

end Verif.Qcdf
