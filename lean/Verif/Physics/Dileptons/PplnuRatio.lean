import Verif.Physics.Dileptons.Pplnu
/-!
# `pp → ℓν`: hadronic cross section and the ratio to the Standard Model
-/
set_option linter.unusedVariables false
set_option linter.unusedSimpArgs false
namespace Verif.Dileptons
open Verif.Py Verif.Running Complex MeasureTheory

local notation "conj" => starRingEnd ℂ

/-- **Specification.** Sum over an up-type quark and a down-type antiquark (positive charge) and a down-type quark and an up-type
antiquark (negative charge), in both protons. -/
noncomputable def hadronicNu (lumi : ℤ → ℤ → ℝ → ℝ) (tau : ℝ) (sig : Fin 3 → Fin 3 → ℝ) : ℝ :=
  ∑ i : Fin 2, ∑ j : Fin 3, (2 * lumi (pid .u i.castSucc) (-pid .d j) tau + 2 * lumi (pid .d j) (-pid .u i.castSucc) tau) * sig i.castSucc j

theorem nuStep_eq (lumi : ℤ → ℤ → ℝ → ℝ) (s tau umin umax : ℝ) (A : AmpNu) {q1 q2 l : String} {i1 i2 il : Fin 3} (x : ℝ)
    (h1 : (q1, UD.u, i1) ∈ quarkOf) (h2 : (q2, UD.d, i2) ∈ quarkOf) (hl : (l, il) ∈ leptonOf) :
    nuStep lumi s tau umin umax l A q1 x q2 = .ok (x + (2 * lumi (pid .u i1) (-pid .d i2) tau + 2 * lumi (pid .d i2) (-pid .u i1) tau) * partialVal s tau umin umax A il i1 i2) := by
  have hf : ∀ {q U i}, (q, U, i) ∈ quarkOf → nuIndices q = .ok i ∧ pdfFlavor q = .ok (pid U i) := by
    intro q U i h
    simp only [quarkOf, List.mem_cons, Prod.mk.injEq, List.not_mem_nil, or_false] at h
    rcases h with ⟨rfl, rfl, rfl⟩ | ⟨rfl, rfl, rfl⟩ | ⟨rfl, rfl, rfl⟩ | ⟨rfl, rfl, rfl⟩ | ⟨rfl, rfl, rfl⟩ <;> exact ⟨rfl, rfl⟩
  have hlep : nuIndices l = .ok il := by
    simp only [leptonOf, List.mem_cons, Prod.mk.injEq, List.not_mem_nil, or_false] at hl
    rcases hl with ⟨rfl, rfl⟩ | ⟨rfl, rfl⟩ | ⟨rfl, rfl⟩ <;> rfl
  unfold nuStep partialNu
  simp only [(hf h1).1, (hf h1).2, (hf h2).1, (hf h2).2, hlep, Bind.bind, Except.bind, pure, Except.pure, ne_eq, ite_not]
  split_ifs with h0
  · rw [h0, mul_zero, add_zero]
  · refine congrArg Except.ok ?_; ring

/-- **C137 (hadronic cross section)** Both charges, all pairs of the two light up-type and three down-type quarks. -/
theorem C137_hadronic (lumi : ℤ → ℤ → ℝ → ℝ) (s tau umin umax : ℝ) (A : AmpNu) {l : String} {il : Fin 3} (hl : (l, il) ∈ leptonOf) :
    dsigmaNu lumi s tau umin umax l A = .ok (hadronicNu lumi tau fun i j => partialVal s tau umin umax A il i j) := by
  have hd : ("d", UD.d, (0 : Fin 3)) ∈ quarkOf := by decide
  have hu : ("u", UD.u, (0 : Fin 3)) ∈ quarkOf := by decide
  have hs : ("s", UD.d, (1 : Fin 3)) ∈ quarkOf := by decide
  have hc : ("c", UD.u, (1 : Fin 3)) ∈ quarkOf := by decide
  have hb : ("b", UD.d, (2 : Fin 3)) ∈ quarkOf := by decide
  unfold dsigmaNu
  simp only [List.foldlM_cons, List.foldlM_nil, Bind.bind, Except.bind, pure, Except.pure,
    nuStep_eq lumi s tau umin umax A _ hu hd hl, nuStep_eq lumi s tau umin umax A _ hu hs hl, nuStep_eq lumi s tau umin umax A _ hu hb hl,
    nuStep_eq lumi s tau umin umax A _ hc hd hl, nuStep_eq lumi s tau umin umax A _ hc hs hl, nuStep_eq lumi s tau umin umax A _ hc hb hl]
  refine congrArg Except.ok ?_
  simp only [hadronicNu, Fin.sum_univ_two, Fin.sum_univ_three, Fin.castSucc_zero, Fin.castSucc_one]
  ring

/-- The cross section as a function of `τ`. (Specification.) -/
noncomputable def sigNu (lumi : ℤ → ℤ → ℝ → ℝ) (s umin umax : ℝ) (il : Fin 3) (wc : ℝ → AmpNu) (t : ℝ) : ℝ :=
  hadronicNu lumi t fun i j => partialVal s t umin umax (wc (t * s)) il i j

/-- The coefficients with and without new physics. (Specification.) -/
noncomputable def fullNu (q : Inp) (scale : ℝ) (np : Bool) (sh : ℝ) : AmpNu :=
  if np then addNu (wcSMNu q sh) (wcNPNu (q.C scale) q.V) else wcSMNu q sh

theorem sigmaNuInt_eq (nint : Angular.Nint) (q : Inp) (s a b Q2 scale : ℝ) (np : Bool) {l : String} {il : Fin 3} (hl : (l, il) ∈ leptonOf) :
    sigmaNuInt nint q s a b l Q2 scale np = .ok (nint (sigNu (q.lumi Q2 (pyInt q.member)) s (a ^ 2 / s) (b ^ 2 / s) il (fullNu q scale np)) (a ^ 2 / s) 1 1e-5) := by
  have e : ∀ t, dsigmaNu (q.lumi Q2 (pyInt q.member)) s t (a ^ 2 / s) (b ^ 2 / s) l (fullNu q scale np (t * s)) = .ok (sigNu (q.lumi Q2 (pyInt q.member)) s (a ^ 2 / s) (b ^ 2 / s) il (fullNu q scale np) t) :=
    fun t => C137_hadronic _ _ _ _ _ _ hl
  have : sigmaNuInt nint q s a b l Q2 scale np = integral nint (fun t => dsigmaNu (q.lumi Q2 (pyInt q.member)) s t (a ^ 2 / s) (b ^ 2 / s) l (fullNu q scale np (t * s))) (a ^ 2 / s) 1 := rfl
  rw [this]
  unfold integral
  simp only [e, val]

theorem ratioNu_eq (nint : Angular.Nint) (q : Inp) (s a b : ℝ) {l : String} {il : Fin 3} (hl : (l, il) ∈ leptonOf) :
    ratioNu nint q s a b l = pyDiv (nint (sigNu (q.lumi (((a + b) / 2) ^ 2) (pyInt q.member)) s (a ^ 2 / s) (b ^ 2 / s) il (fullNu q ((a + b) / 2) true)) (a ^ 2 / s) 1 1e-5)
      (nint (sigNu (q.lumi (((a + b) / 2) ^ 2) (pyInt q.member)) s (a ^ 2 / s) (b ^ 2 / s) il (fullNu q ((a + b) / 2) false)) (a ^ 2 / s) 1 1e-5) := by
  unfold ratioNu
  simp only [sigmaNuInt_eq nint q s a b _ _ _ hl, Bind.bind, Except.bind]

/-! ## The amplitude of the Standard Model -/

/-- **C137 (Standard Model)** The exchange of a `W`: the lepton and neutrino have the same flavour, the quarks come with the element
of the CKM matrix, and there are no scalars or tensors. -/
theorem C137_standard_model (q : Inp) (s : ℝ) (i j k l : Fin 3) :
    (wcSMNu q s).VLL i j k l = (if i = j then q.V k l * ((4 * Real.pi * q.p.alphaE / q.p.s2w * 0.9608 / 2 : ℝ) : ℂ) / ((s : ℂ) - (q.mW : ℂ) ^ 2 + I * (q.mW / q.tauW : ℝ)) else 0)
    ∧ (wcSMNu q s).SRL i j k l = 0 ∧ (wcSMNu q s).SRR i j k l = 0 ∧ (wcSMNu q s).TRR i j k l = 0 := by
  refine ⟨?_, rfl, rfl, rfl⟩
  have e : (wcSMNu q s).VLL i j k l = if i = j then smAmpNu q s * q.V k l else 0 := by
    show ∑ m, smAmpNu q s * eye i j m l * q.V k m = _
    rw [Finset.sum_eq_single l (fun m _ hm => by simp [eye, hm]) (fun h => absurd (Finset.mem_univ l) h)]
    by_cases h : i = j <;> simp [eye, h]
  rw [e]
  by_cases h : i = j
  · rw [if_pos h, if_pos h]
    unfold smAmpNu g2
    rw [div_mul_eq_mul_div]
    congr 1
    · ring
    · push_cast; ring
  · rw [if_neg h, if_neg h]

/-! ## Continuity and sign -/

/-- Physical parameters, a bin, and a luminosity that is continuous and non-negative, positive for `u d̄`.
(Specification.) -/
structure GoodNu (q : Inp) (s a b : ℝ) : Prop where
  s0 : 0 < q.p.s2w
  al : 0 < q.p.alphaE
  mW : 0 < q.mW
  tW : 0 < q.tauW
  Vud : q.V 0 0 ≠ 0
  sp : 0 < s
  ap : 0 < a
  ab : a < b
  as : a ^ 2 < s
  lc : ∀ i j, ContinuousOn (q.lumi (((a + b) / 2) ^ 2) (pyInt q.member) i j) (Set.Icc (a ^ 2 / s) 1)
  ln : ∀ i j, ∀ t ∈ Set.Icc (a ^ 2 / s) 1, 0 ≤ q.lumi (((a + b) / 2) ^ 2) (pyInt q.member) i j t
  ld : ∀ t ∈ Set.Ioo (a ^ 2 / s) 1, 0 < q.lumi (((a + b) / 2) ^ 2) (pyInt q.member) 2 (-1) t

theorem nu_bin {q : Inp} {s a b : ℝ} (h : GoodNu q s a b) : 0 < a ^ 2 / s ∧ a ^ 2 / s < 1 ∧ a ^ 2 / s < b ^ 2 / s := by
  have := h.ap; have := h.sp; have := h.ab
  exact ⟨by positivity, (div_lt_one h.sp).2 h.as, by gcongr⟩

/-- The value in terms of the cosines at the ends of the bin. -/
theorem partial_eq {s tau umin umax : ℝ} (A : AmpNu) (il i1 i2 : Fin 3) (ht : 0 < tau) (h1 : umin ≤ tau) (h2 : umin ≤ umax) :
    partialVal s tau umin umax A il i1 i2 = tau * s / (576 * Real.pi) * ∑ inu,
      (3 * (Real.sqrt (1 - umin / tau) - Real.sqrt (1 - umax / tau)) * (‖A.VLL il inu i1 i2‖ ^ 2 + ‖A.SRL il inu i1 i2‖ ^ 2 + ‖A.SRR il inu i1 i2‖ ^ 2)
        + (Real.sqrt (1 - umin / tau) ^ 3 - Real.sqrt (1 - umax / tau) ^ 3) * (‖A.VLL il inu i1 i2‖ ^ 2 + 16 * ‖A.TRR il inu i1 i2‖ ^ 2)) := by
  obtain ⟨p1, p2⟩ := prefac_eq ht h1 h2
  unfold partialVal
  rw [p1, p2, Finset.sum_div, Finset.mul_sum]
  refine Finset.sum_congr rfl fun inu _ => ?_
  generalize Real.sqrt (1 - umin / tau) = c1
  generalize Real.sqrt (1 - umax / tau) = c0
  have := Real.pi_pos.ne'
  field_simp; ring

/-- The weights of the two structures. (Specification.) -/
noncomputable def w1 (umin umax t : ℝ) : ℝ := 3 * (Real.sqrt (1 - umin / t) - Real.sqrt (1 - umax / t))
/-- The weights of the two structures. (Specification.) -/
noncomputable def w3 (umin umax t : ℝ) : ℝ := Real.sqrt (1 - umin / t) ^ 3 - Real.sqrt (1 - umax / t) ^ 3

theorem w_nonneg {umin umax t : ℝ} (ht : 0 < t) (h2 : umin ≤ umax) : 0 ≤ w1 umin umax t ∧ 0 ≤ w3 umin umax t := by
  have h : Real.sqrt (1 - umax / t) ≤ Real.sqrt (1 - umin / t) := Real.sqrt_le_sqrt (by have : umin / t ≤ umax / t := by gcongr
                                                                                        linarith)
  have := pow_le_pow_left₀ (Real.sqrt_nonneg _) h 3
  unfold w1 w3
  constructor <;> linarith

theorem w_pos {umin umax t : ℝ} (ht : 0 < t) (h1 : umin < t) (h2 : umin < umax) : 0 < w1 umin umax t := by
  have : umin / t < umax / t := by gcongr
  have h0 : umin / t < 1 := (div_lt_one ht).2 h1
  have h : Real.sqrt (1 - umax / t) < Real.sqrt (1 - umin / t) := (Real.sqrt_lt_sqrt_iff_of_pos (by linarith)).2 (by linarith)
  unfold w1; linarith

theorem w_cont (umin umax : ℝ) : ContinuousOn (w1 umin umax) (Set.Ioi 0) ∧ ContinuousOn (w3 umin umax) (Set.Ioi 0) := by
  have k : ∀ u : ℝ, ContinuousOn (fun t => Real.sqrt (1 - u / t)) (Set.Ioi 0) := fun u =>
    (continuousOn_const.sub (continuousOn_const.div continuousOn_id fun t ht => ne_of_gt ht)).sqrt
  exact ⟨continuousOn_const.mul ((k umin).sub (k umax)), ((k umin).pow 3).sub ((k umax).pow 3)⟩

/-- The sum of squares with the weights. (Specification.) -/
noncomputable def sumNu (x y : ℝ) (A : AmpNu) (il i1 i2 : Fin 3) : ℝ :=
  ∑ inu, (x * (‖A.VLL il inu i1 i2‖ ^ 2 + ‖A.SRL il inu i1 i2‖ ^ 2 + ‖A.SRR il inu i1 i2‖ ^ 2) + y * (‖A.VLL il inu i1 i2‖ ^ 2 + 16 * ‖A.TRR il inu i1 i2‖ ^ 2))

theorem sumNu_nonneg {x y : ℝ} (hx : 0 ≤ x) (hy : 0 ≤ y) (A : AmpNu) (il i1 i2 : Fin 3) : 0 ≤ sumNu x y A il i1 i2 :=
  Finset.sum_nonneg fun inu _ => by positivity

theorem sigNu_eq (lumi : ℤ → ℤ → ℝ → ℝ) {s umin umax t : ℝ} (il : Fin 3) (wc : ℝ → AmpNu) (ht : 0 < t) (h1 : umin ≤ t) (h2 : umin ≤ umax) :
    sigNu lumi s umin umax il wc t = hadronicNu lumi t fun i j => t * s / (576 * Real.pi) * sumNu (w1 umin umax t) (w3 umin umax t) (wc (t * s)) il i j := by
  unfold sigNu
  refine congrArg _ (funext fun i => funext fun j => partial_eq _ il i j ht h1 h2)

theorem hadronicNu_mono {lumi : ℤ → ℤ → ℝ → ℝ} {t : ℝ} (hl : ∀ i j, 0 ≤ lumi i j t) {f g : Fin 3 → Fin 3 → ℝ} (h : ∀ i j, f i j ≤ g i j) : hadronicNu lumi t f ≤ hadronicNu lumi t g :=
  Finset.sum_le_sum fun i _ => Finset.sum_le_sum fun j _ => mul_le_mul_of_nonneg_left (h _ _) (add_nonneg (mul_nonneg zero_le_two (hl _ _)) (mul_nonneg zero_le_two (hl _ _)))

theorem hadronicNu_zero (lumi : ℤ → ℤ → ℝ → ℝ) (t : ℝ) : hadronicNu lumi t (fun _ _ => 0) = 0 := by simp [hadronicNu]

theorem hadronicNu_lin (lumi : ℤ → ℤ → ℝ → ℝ) (t x y : ℝ) (f g h : Fin 3 → Fin 3 → ℝ) :
    hadronicNu lumi t (fun i j => f i j + x * g i j + y * h i j) = hadronicNu lumi t f + x * hadronicNu lumi t g + y * hadronicNu lumi t h := by
  simp only [hadronicNu, Fin.sum_univ_two, Fin.sum_univ_three]; ring

theorem hadronicNu_cont {lumi : ℤ → ℤ → ℝ → ℝ} {sig : ℝ → Fin 3 → Fin 3 → ℝ} {S : Set ℝ} (hl : ∀ i j, ContinuousOn (lumi i j) S) (hs : ∀ i j, ContinuousOn (fun t => sig t i j) S) :
    ContinuousOn (fun t => hadronicNu lumi t (sig t)) S :=
  continuousOn_finsetSum _ fun i _ => continuousOn_finsetSum _ fun j _ => ((continuousOn_const.mul (hl _ _)).add (continuousOn_const.mul (hl _ _))).mul (hs _ _)

theorem smNu_ne {q : Inp} (h0 : 0 < q.p.s2w) (ha : 0 < q.p.alphaE) (hm : 0 < q.mW) (ht : 0 < q.tauW) (s : ℝ) :
    smAmpNu q s ≠ 0 ∧ (((s - q.mW ^ 2 : ℝ) : ℂ) + I * ((q.mW * (1 / q.tauW) : ℝ) : ℂ)) ≠ 0 := by
  have hd : (((s - q.mW ^ 2 : ℝ) : ℂ) + I * ((q.mW * (1 / q.tauW) : ℝ) : ℂ)) ≠ 0 := by
    intro h
    have := congrArg Complex.im h
    simp only [add_im, ofReal_im, mul_im, I_re, I_im, ofReal_re, zero_mul, zero_add, one_mul, zero_im] at this
    have : 0 < q.mW * (1 / q.tauW) := by positivity
    linarith
  have := Real.pi_pos
  refine ⟨div_ne_zero (Complex.ofReal_ne_zero.2 ?_) hd, hd⟩
  unfold g2; positivity

/-- All entries are continuous. (Specification.) -/
def ContNu (A : ℝ → AmpNu) (S : Set ℝ) : Prop :=
  ∀ i j k l, ContinuousOn (fun t => (A t).VLL i j k l) S ∧ ContinuousOn (fun t => (A t).SRL i j k l) S ∧ ContinuousOn (fun t => (A t).SRR i j k l) S ∧ ContinuousOn (fun t => (A t).TRR i j k l) S

theorem fullNu_cont {q : Inp} {s a b : ℝ} (h : GoodNu q s a b) (scale : ℝ) (np : Bool) (S : Set ℝ) : ContNu (fun t => fullNu q scale np (t * s)) S := by
  have k : ContinuousOn (fun t => smAmpNu q (t * s)) S := by
    unfold smAmpNu
    exact ContinuousOn.div continuousOn_const (Continuous.continuousOn (by fun_prop)) fun t _ => (smNu_ne h.s0 h.al h.mW h.tW _).2
  intro i j m n
  have v : ContinuousOn (fun t => ∑ x, smAmpNu q (t * s) * eye i j x n * q.V m x) S :=
    continuousOn_finsetSum _ fun x _ => (k.mul continuousOn_const).mul continuousOn_const
  cases np
  · simp only [fullNu, wcSMNu, Bool.false_eq_true, if_false]
    exact ⟨v, continuousOn_const, continuousOn_const, continuousOn_const⟩
  · simp only [fullNu, addNu, wcSMNu, if_true, Pi.add_apply]
    exact ⟨v.add continuousOn_const, continuousOn_const.add continuousOn_const, continuousOn_const.add continuousOn_const, continuousOn_const.add continuousOn_const⟩

theorem sumNu_cont {A : ℝ → AmpNu} {x y : ℝ → ℝ} {S : Set ℝ} (h : ContNu A S) (hx : ContinuousOn x S) (hy : ContinuousOn y S) (il i j : Fin 3) : ContinuousOn (fun t => sumNu (x t) (y t) (A t) il i j) S := by
  unfold sumNu
  refine continuousOn_finsetSum _ fun n _ => ?_
  obtain ⟨h1, h2, h3, h4⟩ := h il n i j
  exact (hx.mul (((h1.norm.pow 2).add (h2.norm.pow 2)).add (h3.norm.pow 2))).add (hy.mul ((h1.norm.pow 2).add (continuousOn_const.mul (h4.norm.pow 2))))

theorem sigNu_int {q : Inp} {s a b : ℝ} (h : GoodNu q s a b) (scale : ℝ) (np : Bool) (il : Fin 3) :
    IntervalIntegrable (sigNu (q.lumi (((a + b) / 2) ^ 2) (pyInt q.member)) s (a ^ 2 / s) (b ^ 2 / s) il (fullNu q scale np)) volume (a ^ 2 / s) 1 := by
  obtain ⟨b0, b1, b2⟩ := nu_bin h
  refine ContinuousOn.intervalIntegrable ?_
  rw [Set.uIcc_of_le b1.le]
  have hS : Set.Icc (a ^ 2 / s) 1 ⊆ Set.Ioi 0 := fun t ht => b0.trans_le ht.1
  refine (hadronicNu_cont h.lc (sig := fun t i j => t * s / (576 * Real.pi) * sumNu (w1 (a ^ 2 / s) (b ^ 2 / s) t) (w3 (a ^ 2 / s) (b ^ 2 / s) t) (fullNu q scale np (t * s)) il i j) fun i j => ?_).congr
    fun t ht => sigNu_eq _ _ _ (b0.trans_le ht.1) ht.1 b2.le
  exact (Continuous.continuousOn (by fun_prop)).mul (sumNu_cont (fullNu_cont h scale np _) ((w_cont _ _).1.mono hS) ((w_cont _ _).2.mono hS) il i j)

theorem sigNu_nonneg {lumi : ℤ → ℤ → ℝ → ℝ} {s umin umax t : ℝ} (hl : ∀ i j, 0 ≤ lumi i j t) (hs : 0 ≤ s) (ht : 0 < t) (h1 : umin ≤ t) (h2 : umin ≤ umax) (il : Fin 3) (wc : ℝ → AmpNu) : 0 ≤ sigNu lumi s umin umax il wc t := by
  rw [sigNu_eq _ _ _ ht h1 h2, ← hadronicNu_zero lumi t]
  have := Real.pi_pos
  exact hadronicNu_mono hl fun i j => mul_nonneg (by positivity) (sumNu_nonneg (w_nonneg ht h2).1 (w_nonneg ht h2).2 _ _ _ _)

theorem smNu_pos {q : Inp} {s a b : ℝ} (h : GoodNu q s a b) (scale : ℝ) (il : Fin 3) :
    0 < ∫ t in (a ^ 2 / s)..1, sigNu (q.lumi (((a + b) / 2) ^ 2) (pyInt q.member)) s (a ^ 2 / s) (b ^ 2 / s) il (fullNu q scale false) t := by
  obtain ⟨b0, b1, b2⟩ := nu_bin h
  refine intervalIntegral.intervalIntegral_pos_of_pos_on (sigNu_int h scale false il) (fun t ht => ?_) b1
  have t0 : 0 < t := b0.trans ht.1
  have hpi := Real.pi_pos
  have hs := h.sp
  have hk : 0 < t * s / (576 * Real.pi) := by positivity
  set lumi := q.lumi (((a + b) / 2) ^ 2) (pyInt q.member) with hlumi
  rw [sigNu_eq _ _ _ t0 ht.1.le b2.le]
  obtain ⟨n1, n3⟩ := w_nonneg t0 b2.le
  have p1 := w_pos t0 ht.1 b2
  set y := t * s / (576 * Real.pi) * sumNu (w1 (a ^ 2 / s) (b ^ 2 / s) t) (w3 (a ^ 2 / s) (b ^ 2 / s) t) (fullNu q scale false (t * s)) il 0 0 with hy
  have hy0 : 0 < y := by
    refine mul_pos hk ?_
    refine Finset.sum_pos' (fun n _ => by positivity) ⟨il, Finset.mem_univ _, ?_⟩
    have hv : (fullNu q scale false (t * s)).VLL il il 0 0 ≠ 0 := by
      have : (fullNu q scale false (t * s)).VLL il il 0 0 = smAmpNu q (t * s) * q.V 0 0 := by
        show ∑ m, smAmpNu q (t * s) * eye il il m 0 * q.V 0 m = _
        rw [Finset.sum_eq_single 0 (fun m _ hm => by simp [eye, hm]) (fun h => absurd (Finset.mem_univ _) h)]
        simp [eye]
      rw [this]
      exact mul_ne_zero (smNu_ne h.s0 h.al h.mW h.tW _).1 h.Vud
    have := norm_pos_iff.2 hv
    positivity
  have hm := hadronicNu_mono (lumi := lumi) (t := t) (fun i j => h.ln i j t (Set.Ioo_subset_Icc_self ht))
    (f := fun i j => if i = 0 ∧ j = 0 then y else 0) (g := fun i j => t * s / (576 * Real.pi) * sumNu (w1 (a ^ 2 / s) (b ^ 2 / s) t) (w3 (a ^ 2 / s) (b ^ 2 / s) t) (fullNu q scale false (t * s)) il i j) (by
      intro i j
      split_ifs with hc
      · obtain ⟨rfl, rfl⟩ := hc; exact le_rfl
      · exact mul_nonneg hk.le (sumNu_nonneg n1 n3 _ _ _ _))
  refine lt_of_lt_of_le ?_ hm
  have : hadronicNu lumi t (fun i j => if i = 0 ∧ j = 0 then y else 0) = (2 * lumi 2 (-1) t + 2 * lumi 1 (-2) t) * y := by
    simp [hadronicNu, Fin.sum_univ_two, Fin.sum_univ_three, pid]
  rw [this]
  have := h.ld t ht
  have := h.ln 1 (-2) t (Set.Ioo_subset_Icc_self ht)
  positivity

/-! ## The ratio -/

/-- **C137 (ratio)** In a bin the ratio is that of the integrated cross sections; that of the Standard Model is positive. -/
theorem C137_ratio {nint : Angular.Nint} (hx : Angular.Exact nint) {q : Inp} {s a b : ℝ} (h : GoodNu q s a b) {l : String} {il : Fin 3} (hl : (l, il) ∈ leptonOf) :
    let sg (np : Bool) := ∫ t in (a ^ 2 / s)..1, sigNu (q.lumi (((a + b) / 2) ^ 2) (pyInt q.member)) s (a ^ 2 / s) (b ^ 2 / s) il (fullNu q ((a + b) / 2) np) t
    ratioNu nint q s a b l = .ok (sg true / sg false) ∧ 0 < sg false ∧ 0 ≤ sg true ∧ 0 ≤ sg true / sg false := by
  obtain ⟨b0, b1, b2⟩ := nu_bin h
  have hp := smNu_pos h ((a + b) / 2) il
  have hn : 0 ≤ ∫ t in (a ^ 2 / s)..1, sigNu (q.lumi (((a + b) / 2) ^ 2) (pyInt q.member)) s (a ^ 2 / s) (b ^ 2 / s) il (fullNu q ((a + b) / 2) true) t :=
    intervalIntegral.integral_nonneg b1.le fun t ht => sigNu_nonneg (fun i j => h.ln i j t ht) h.sp.le (b0.trans_le ht.1) ht.1 b2.le _ _
  refine ⟨?_, hp, hn, div_nonneg hn hp.le⟩
  rw [ratioNu_eq nint q s a b hl, hx _ _ _ _ (sigNu_int h _ _ _), hx _ _ _ _ (sigNu_int h _ _ _), Mixing.pyDiv_ne hp.ne']

theorem fullNu_zero (q : Inp) (scale sh : ℝ) (h : q.C scale = .zero) : fullNu q scale true sh = fullNu q scale false sh := by
  simp [fullNu, addNu, wcSMNu, wcNPNu, h, Smeft.zero]
  funext i j k m; simp

/-- **C137 (Standard Model value)** Without new physics the ratio is one for every integrator, unless the cross section itself
vanishes (`ZeroDivisionError`). -/
theorem C137_ratio_sm (nint : Angular.Nint) (q : Inp) (s a b : ℝ) {l : String} {il : Fin 3} (hl : (l, il) ∈ leptonOf) (h : q.C ((a + b) / 2) = .zero) :
    ratioNu nint q s a b l = .ok 1 ∨ (ratioNu nint q s a b l = .error .zeroDivisionError ∧ sigmaNuInt nint q s a b l (((a + b) / 2) ^ 2) ((a + b) / 2) false = .ok 0) := by
  rw [ratioNu_eq nint q s a b hl, sigmaNuInt_eq nint q s a b _ _ _ hl, show fullNu q ((a + b) / 2) true = fullNu q ((a + b) / 2) false from funext fun sh => fullNu_zero q _ sh h]
  by_cases h0 : nint (sigNu (q.lumi (((a + b) / 2) ^ 2) (pyInt q.member)) s (a ^ 2 / s) (b ^ 2 / s) il (fullNu q ((a + b) / 2) false)) (a ^ 2 / s) 1 1e-5 = 0
  · right; rw [h0]; exact ⟨Mixing.pyDiv_zero _, rfl⟩
  · left; rw [Mixing.pyDiv_ne h0, div_self h0]

/-! ## The energy of the collider -/

theorem dsigmaNu_congr (lumi lumi' : ℤ → ℤ → ℝ → ℝ) (s tau umin umax : ℝ) (l : String) (A : AmpNu) (h : ∀ i j, lumi i j tau = lumi' i j tau) :
    dsigmaNu lumi s tau umin umax l A = dsigmaNu lumi' s tau umin umax l A := by
  unfold dsigmaNu
  have : ∀ q1 sigma q2, nuStep lumi s tau umin umax l A q1 sigma q2 = nuStep lumi' s tau umin umax l A q1 sigma q2 := by
    intro q1 sigma q2
    unfold nuStep
    simp only [h]
  simp only [funext fun q1 => funext fun sigma => funext fun q2 => this q1 sigma q2]

/-- **C137 (13 TeV).** `R_13` is about proton collisions at 13 TeV: partons with the product `(M / 13000)²` of momentum fractions have the
invariant mass `M` GeV, which is between the lower end of the bin in the transverse mass and the energy of the collider; sets of
parton distributions that agree for these products give the same value. -/
theorem C137_energy {nint : Angular.Nint} (hn : Inside nint) (q q' : Inp) (l : String) (mTmin mTmax : ℝ) (h0 : 0 ≤ mTmin) (h1 : mTmin ≤ 13000)
    (hq : q' = { q with lumi := q'.lumi })
    (h : ∀ M, mTmin ≤ M → M ≤ 13000 → ∀ Q2 m i j, q.lumi Q2 m i j ((M / 13000) ^ 2) = q'.lumi Q2 m i j ((M / 13000) ^ 2)) :
    ratioNu13 nint q l mTmin mTmax = ratioNu13 nint q' l mTmin mTmax := by
  have hab : mTmin ^ 2 / (13000 : ℝ) ^ 2 ≤ 1 := by rw [div_le_one (by norm_num)]; gcongr
  have hl : ∀ Q2 m i j, ∀ t ∈ Set.Icc (mTmin ^ 2 / (13000 : ℝ) ^ 2) 1, q.lumi Q2 m i j t = q'.lumi Q2 m i j t := by
    intro Q2 m i j t ht
    have ht0 : 0 ≤ t := le_trans (by positivity) ht.1
    have e : t = ((13000 * Real.sqrt t) / 13000) ^ 2 := by
      rw [mul_div_cancel_left₀ _ (by norm_num), Real.sq_sqrt ht0]
    rw [e]
    refine h _ ?_ ?_ Q2 m i j
    · refine (sq_le_sq₀ (by linarith) (by positivity)).1 ?_
      rw [mul_pow, Real.sq_sqrt ht0]
      have := ht.1
      rw [div_le_iff₀ (by norm_num)] at this
      linarith
    · refine (sq_le_sq₀ (by positivity) (by norm_num)).1 ?_
      rw [mul_pow, Real.sq_sqrt ht0]
      have := ht.2
      linarith
  have hw : ∀ s, wcSMNu q s = wcSMNu q' s := by intro s; rw [hq]; rfl
  have key : ∀ Q2 scale np, sigmaNuInt nint q (13000 ^ 2) mTmin mTmax l Q2 scale np = sigmaNuInt nint q' (13000 ^ 2) mTmin mTmax l Q2 scale np := by
    intro Q2 scale np
    unfold sigmaNuInt
    have hC : q'.C = q.C := by rw [hq]
    have hV : q'.V = q.V := by rw [hq]
    have hm : q'.member = q.member := by rw [hq]
    unfold integral
    simp only [hw, hC, hV, hm]
    have e : ∀ t ∈ Set.Icc (mTmin ^ 2 / (13000 : ℝ) ^ 2) 1, ∀ A,
        dsigmaNu (q.lumi Q2 (pyInt q.member)) (13000 ^ 2) t (mTmin ^ 2 / 13000 ^ 2) (mTmax ^ 2 / 13000 ^ 2) l A =
          dsigmaNu (q'.lumi Q2 (pyInt q.member)) (13000 ^ 2) t (mTmin ^ 2 / 13000 ^ 2) (mTmax ^ 2 / 13000 ^ 2) l A :=
      fun t ht A => dsigmaNu_congr _ _ _ _ _ _ _ _ fun i j => hl _ _ _ _ t ht
    rw [e _ (Set.left_mem_Icc.2 hab)]
    split
    · rfl
    · congr 1
      refine hn _ _ _ _ _ hab fun t ht => ?_
      rw [e t ht]
  unfold ratioNu13 ratioNu
  simp only [key]

end Verif.Dileptons
