import Verif.Physics.Mixing.Amplitude
import Verif.Physics.Kdecays.KpipiTheorems
import Verif.Physics.Kdecays.KpinunuTheorems
import Verif.Physics.Inclusive.XgammaTheorems
import Verif.Physics.Bvll.VgammaTheorems
import Verif.Physics.Dipoles.Edm
import Verif.Physics.Beta.Model
import Verif.Physics.Angular.VObs
import Verif.Physics.Angular.P
import Verif.Physics.Semilep.V
/-!
# Without CP violation there are no CP asymmetries

If the CKM matrix and all Wilson coefficients are real, every observable that measures CP violation vanishes, whatever the
values of the parameters: `flavio/physics/ckm.py`, `mesonmixing`, `kdecays`, `bdecays`, `edms`, `betadecays`.
-/
set_option linter.unusedVariables false
set_option linter.unusedSimpArgs false
namespace Verif.CpConserving
open Verif.Py Verif.Running Verif.Ckm Complex
local notation "conj" => starRingEnd ℂ

/-- A real number, as a complex one. (Specification.) -/
def IsReal (z : ℂ) : Prop := conj z = z
/-- All elements of the CKM matrix are real: no CP violation in the Standard Model. (Specification.) -/
def RealMat (V : Mat) : Prop := ∀ i j, IsReal (V i j)
/-- All Wilson coefficients are real: no CP violation beyond the Standard Model. (Specification.) -/
def RealWc (wc : String → ℂ) : Prop := ∀ n, IsReal (wc n)

theorem IsReal.im {z : ℂ} (h : IsReal z) : z.im = 0 := conj_eq_iff_im.1 h
theorem IsReal.ex {z : ℂ} (h : IsReal z) : ∃ r : ℝ, z = r := by
  obtain ⟨r, hr⟩ := conj_eq_iff_real.1 h; exact ⟨r, hr⟩
theorem isReal_of (r : ℝ) : IsReal (r : ℂ) := conj_ofReal r
theorem IsReal.add {z w : ℂ} (h : IsReal z) (k : IsReal w) : IsReal (z + w) := by unfold IsReal at *; rw [map_add, h, k]
theorem IsReal.mul {z w : ℂ} (h : IsReal z) (k : IsReal w) : IsReal (z * w) := by unfold IsReal at *; rw [map_mul, h, k]
theorem IsReal.div {z w : ℂ} (h : IsReal z) (k : IsReal w) : IsReal (z / w) := by unfold IsReal at *; rw [map_div₀, h, k]
theorem IsReal.neg {z : ℂ} (h : IsReal z) : IsReal (-z) := by unfold IsReal at *; rw [map_neg, h]
theorem IsReal.pow {z : ℂ} (h : IsReal z) (n : ℕ) : IsReal (z ^ n) := by unfold IsReal at *; rw [map_pow, h]

theorem sin_arg_real {z : ℂ} (h : IsReal z) : Real.sin (arg z) = 0 := by
  rw [Complex.sin_arg, h.im, zero_div]

theorem xiKl_real {V : Mat} (h : RealMat V) (k l i j : Fin 3) : IsReal (xiKlIj V k l i j) := by
  unfold xiKlIj; exact (h k i).mul (by rw [h l j]; exact h l j)

theorem xi_real {V : Mat} (h : RealMat V) {a : Char} {bc : List Char} {f : Mat → ℂ} (hf : xi a bc = .ok f) : IsReal (f V) := by
  have key : ∀ {A : Type} (x : Except PyErr A) (g : A → Except PyErr (Mat → ℂ)), (∀ y f, g y = .ok f → IsReal (f V)) →
      ∀ f, (x >>= g) = .ok f → IsReal (f V) := by
    intro A x g hg f hx
    cases x with
    | error e => cases hx
    | ok y => exact hg y f hx
  unfold xi at hf
  split at hf
  · exact key _ _ (fun _ => key _ _ fun _ => key _ _ fun _ => key _ _ fun _ f hf => by cases hf; exact xiKl_real h _ _ _ _) _ hf
  · exact key _ _ (fun _ => key _ _ fun _ => key _ _ fun _ => key _ _ fun _ => key _ _ fun _ f hf => by cases hf; exact xiKl_real h _ _ _ _) _ hf

/-- **C170 (CKM).** With a real CKM matrix the products `ξ` are real and the unitarity triangle is flat. -/
theorem C170_ckm {V : Mat} (h : RealMat V) :
    (∀ a bc f, xi a bc = .ok f → IsReal (f V)) ∧
    Real.sin (angleAlpha V) = 0 ∧ Real.sin (angleBeta V) = 0 ∧ Real.sin (angleGamma V) = 0 := by
  have r : ∀ i j, IsReal (conj (V i j)) := fun i j => by rw [h i j]; exact h i j
  refine ⟨fun a bc f hf => xi_real h hf, sin_arg_real ?_, sin_arg_real ?_, sin_arg_real ?_⟩ <;>
  exact (((h _ _).neg.mul (r _ _)).div (h _ _)).div (r _ _)

/-! ## Meson mixing -/

/-- All results of a computation are real. (Specification.) -/
def RealRes (x : Except PyErr ℂ) : Prop := ∀ z, x = .ok z → IsReal z

theorem RealRes.bind {A : Type} {x : Except PyErr A} {g : A → Except PyErr ℂ} (h : ∀ y, x = .ok y → RealRes (g y)) : RealRes (x >>= g) := by
  intro z hz
  cases x with
  | error e => cases hz
  | ok y => exact h y rfl z hz

theorem RealRes.ok {z : ℂ} (h : IsReal z) : RealRes (.ok z) := by intro w hw; cases hw; exact h
theorem RealRes.err {e : PyErr} : RealRes (.error e) := by intro w hw; cases hw

theorem threeBoxes_real {N xt xi xk : ℝ} {a b : ℂ} {e1 e2 e3 : ℝ} (ha : IsReal a) (hb : IsReal b) :
    RealRes (Mixing.threeBoxes N xt xi xk a b e1 e2 e3) := by
  unfold Mixing.threeBoxes
  refine .bind fun s _ => .bind fun t _ => .bind fun u _ => .ok ?_
  have two : IsReal (2 : ℂ) := by exact_mod_cast isReal_of 2
  exact (isReal_of _).mul ((((isReal_of _).mul ((ha.pow 2).mul (isReal_of _))).add
    ((isReal_of _).mul (((two.mul hb).mul ha).mul (isReal_of _)))).add ((isReal_of _).mul ((hb.pow 2).mul (isReal_of _))))

theorem cvllD_real {V : Mat} (h : RealMat V) (conf : String) (q : Mixing.Inputs) (m : Mixing.Meson) : RealRes (Mixing.cvllD conf V q m) := by
  unfold Mixing.cvllD
  simp only
  split_ifs
  · exact .bind fun f hf => .bind fun g hg => threeBoxes_real (xi_real h hf) (xi_real h hg)
  · exact .bind fun f hf => .bind fun g hg => threeBoxes_real (xi_real h hf) (xi_real h hg)
  · exact .err
  · refine .bind fun f hf => .bind fun s _ => .ok ?_
    exact ((isReal_of _).mul (isReal_of _)).mul (((xi_real h hf).pow 2).mul (isReal_of _))

theorem m12dSM_real {V : Mat} (h : RealMat V) (conf : String) (q : Mixing.Inputs) (m : Mixing.Meson) : RealRes (Mixing.m12dSM conf V q m) := by
  unfold Mixing.m12dSM
  exact .bind fun b _ => .bind fun c hc => .ok ((cvllD_real h conf q m c hc).neg.mul (isReal_of _))

theorem uSM_real {V : Mat} (h : RealMat V) (pre : String) (q : Mixing.Inputs) : RealRes (Mixing.uSM pre V q) := by
  unfold Mixing.uSM
  refine .bind fun f hf => .bind fun g hg => .ok ?_
  have a := xi_real h hf
  have b := xi_real h hg
  exact ((((isReal_of _).mul (b.pow 2)).add (((isReal_of _).mul a).mul b)).add ((isReal_of _).mul (a.pow 2))).div (isReal_of _)

theorem np_real (q : Mixing.Inputs) (m : Mixing.Meson) {wc : String → ℂ} (hw : RealWc wc) : IsReal (Mixing.contributionNp q m wc) := by
  unfold Mixing.contributionNp
  have : ∀ (l : List (String × ℝ)) (a : ℂ), IsReal a → IsReal (l.foldl (fun acc e => acc + -wc (Mixing.wcName m e.1) * e.2) a) := by
    intro l
    induction l with
    | nil => exact fun a ha => ha
    | cons e l ih => exact fun a ha => ih _ (ha.add ((hw _).neg.mul (isReal_of _)))
  exact this _ 0 (by unfold IsReal; exact map_zero _)

theorem mixing_real {V : Mat} (h : RealMat V) {wc : String → ℂ} (hw : RealWc wc) (conf : String) (q : Mixing.Inputs) (m : Mixing.Meson)
    {M G : ℂ} (hMG : Mixing.getM12G12 conf V q m wc = .ok (M, G)) : IsReal M ∧ IsReal G := by
  have hm : RealRes (Mixing.m12 conf V q m wc) := by
    unfold Mixing.m12
    refine .bind fun sm hs => .ok ((np_real q m hw).add ?_)
    split_ifs at hs
    · exact uSM_real h _ q sm hs
    · exact m12dSM_real h conf q m sm hs
  have hg : RealRes (Mixing.g12dSM conf V q m) := by
    unfold Mixing.g12dSM
    refine .bind fun f hf => .bind fun g hg => .bind fun N hN => .ok ?_
    have ten : IsReal ((1 : ℂ) / 10 ^ 4) := by
      have := isReal_of (1 / 10 ^ 4 : ℝ)
      push_cast at this; exact this
    exact ((m12dSM_real h conf q m N hN).mul ((isReal_of _).add (((isReal_of _).mul (xi_real h hg)).div (xi_real h hf)))).mul ten
  unfold Mixing.getM12G12 at hMG
  cases h1 : Mixing.m12 conf V q m wc with
  | error e => rw [h1] at hMG; cases hMG
  | ok N =>
    rw [h1] at hMG
    have rN := hm N h1
    cases m with
    | K0 => cases hMG; exact ⟨rN, by unfold IsReal; exact map_zero _⟩
    | D0 =>
      change (Mixing.uSM "Gamma12" V q >>= fun G => Except.ok (N, G)) = _ at hMG
      cases h2 : Mixing.uSM "Gamma12" V q with
      | error e => rw [h2] at hMG; cases hMG
      | ok K => rw [h2] at hMG; cases hMG; exact ⟨rN, uSM_real h _ q _ h2⟩
    | B0 =>
      change (Mixing.g12dSM conf V q .B0 >>= fun G => Except.ok (N, G)) = _ at hMG
      cases h2 : Mixing.g12dSM conf V q .B0 with
      | error e => rw [h2] at hMG; cases hMG
      | ok K => rw [h2] at hMG; cases hMG; exact ⟨rN, hg _ h2⟩
    | Bs =>
      change (Mixing.g12dSM conf V q .Bs >>= fun G => Except.ok (N, G)) = _ at hMG
      cases h2 : Mixing.g12dSM conf V q .Bs with
      | error e => rw [h2] at hMG; cases hMG
      | ok K => rw [h2] at hMG; cases hMG; exact ⟨rN, hg _ h2⟩

/-- For real amplitudes `q/p = -1`. -/
theorem qp_real {M G : ℂ} (hM : IsReal M) (hG : IsReal G) : Mixing.qOverP M G = -1 := by
  unfold Mixing.qOverP
  split_ifs with h
  · rfl
  · rw [hM, hG, div_self h]; simp [Mixing.csqrt]

theorem sMix_real {M G A Ab : ℂ} {eta s : ℝ} (hM : IsReal M) (hG : IsReal G) (hA : IsReal A) (hB : IsReal Ab)
    (h : Mixing.sMix M G A Ab eta = .ok s) : s = 0 := by
  unfold Mixing.sMix at h
  have qp : IsReal (Mixing.qpPositive M G) := by
    unfold Mixing.qpPositive
    rw [qp_real hM hG]
    have one : IsReal (-1 : ℂ) := by exact_mod_cast isReal_of (-1)
    split_ifs
    · exact one.neg
    · exact one
  split_ifs at h
  cases h
  rw [((((isReal_of eta).mul qp).mul hA).div hB).im]
  simp

/-- **C170 (meson mixing).** With a real CKM matrix and real coefficients the mixing amplitudes of `K0`, `D0`, `B0` and `Bs` are
real, `q/p = -1`, and `ε_K`, the flavour-specific asymmetry, `sin φ12` and `x12 sin φ12`, and the mixing-induced asymmetries of
`B → ψ K` and `Bs → ψ φ` (and for every decay with real amplitudes) vanish. -/
theorem C170_mixing {V : Mat} (h : RealMat V) {wc : String → ℂ} (hw : RealWc wc) (conf : String) (q : Mixing.Inputs) (m : Mixing.Meson)
    {M G : ℂ} (hMG : Mixing.getM12G12 conf V q m wc = .ok (M, G)) :
    M.im = 0 ∧ G.im = 0 ∧ Mixing.qOverP M G = -1 ∧
    (∀ a, Mixing.aFs M G = .ok a → a = 0) ∧
    Real.sin (Mixing.phi12 M G) = 0 ∧ (∀ tau, Mixing.x12Im M G tau = 0) ∧ Mixing.phiD M G = 0 ∧
    (∀ k dm e, Mixing.epsK k dm M = .ok e → e = 0) ∧
    (∀ A Ab eta s, IsReal A → IsReal Ab → Mixing.sMix M G A Ab eta = .ok s → s = 0) ∧
    (∀ eta s, Mixing.sPsi conf V q m wc eta = .ok s → s = 0) := by
  obtain ⟨hM, hG⟩ := mixing_real h hw conf q m hMG
  have hs : Real.sin (Mixing.phi12 M G) = 0 := sin_arg_real (hM.div hG)
  refine ⟨hM.im, hG.im, qp_real hM hG, ?_, hs, ?_, ?_, ?_, fun A Ab eta s hA hB => sMix_real hM hG hA hB, ?_⟩
  · intro a ha
    unfold Mixing.aFs at ha
    split_ifs at ha
    cases ha
    rw [sin_arg_real (hM.neg.div hG), mul_zero]
  · intro tau; unfold Mixing.x12Im; rw [hs, mul_zero]
  · unfold Mixing.phiD; rw [qp_real hM hG, neg_neg, arg_one]
  · intro k dm e he
    unfold Mixing.epsK at he
    split_ifs at he
    cases he
    rw [hM.im]; simp
  · intro eta s he
    unfold Mixing.sPsi at he
    rw [hMG] at he
    have hV : V.map conj = V := by ext i j; exact h i j
    rw [hV] at he
    change (Mixing.amplitudePsi V m >>= fun A => Mixing.amplitudePsi V m >>= fun Ab => Mixing.sMix M G A Ab eta) = _ at he
    cases hp : Mixing.amplitudePsi V m with
    | error e => rw [hp] at he; cases he
    | ok A =>
      rw [hp] at he
      have rA : IsReal A := by
        have : RealRes (Mixing.amplitudePsi V m) := by
          unfold Mixing.amplitudePsi
          exact .bind fun f hf => .ok (xi_real h hf)
        exact this A hp
      exact sMix_real hM hG rA rA he

/-! ## Kaon decays -/

/-- **C170 (kaons).** `K_L → π0 ν ν̄` is CP violating for equal neutrino flavours and all real coefficients: its branching ratio
vanishes for every pair of neutrinos and in the sum; and so does `ε'/ε`. -/
theorem C170_kaons :
    (∀ (d : Kpinunu.Inp) (np : String → ℂ), RealMat d.V → RealWc np →
      (∀ a b r, Kpinunu.brLong d np a b = .ok r → r = 0) ∧ (∀ r, Kpinunu.brLongSummed d np = .ok r → r = 0)) ∧
    (∀ (d : Kpipi.Inp) (wc : String → ℂ), Kpipi.Phys d → RealMat d.V → RealWc wc → Kpipi.eps d wc = .ok 0) := by
  constructor
  · intro d np hV hw
    have amp : ∀ a b, (Kpinunu.amplitude d np a b).im = 0 := by
      intro a b
      have cl : IsReal (Kpinunu.clTot d np a b) := by
        unfold Kpinunu.clTot; split_ifs
        · exact (hw _).add (isReal_of _)
        · exact hw _
      have t : IsReal (Kpinunu.xiDS d 2 * (-(Kpinunu.clTot d np a b + np ("CR_sd" ++ a ++ b)) * (d.par "s2w" : ℂ))) :=
        (xiKl_real hV _ _ _ _).mul ((cl.add (hw _)).neg.mul (isReal_of _))
      unfold Kpinunu.amplitude
      simp only
      split_ifs
      · exact (t.add (((xiKl_real hV _ _ _ _).mul (isReal_of _)).mul ((isReal_of _).pow 4))).im
      · exact t.im
    have one : ∀ a b r, Kpinunu.brLong d np a b = .ok r → r = 0 := by
      intro a b r hr
      unfold Kpinunu.brLong at hr
      rw [amp] at hr
      cases hk : Kpinunu.kappaTilde d "long" with
      | error e => rw [hk] at hr; cases hr
      | ok k =>
        rw [hk] at hr
        change (pyDiv ((0 : ℝ) ^ 2 * k) (‖d.V 0 1‖ ^ 2) >>= fun r => pure (r / 3)) = _ at hr
        unfold pyDiv at hr
        split_ifs at hr
        · cases hr
        · cases hr; simp
    refine ⟨one, fun r hr => ?_⟩
    unfold Kpinunu.brLongSummed Kpinunu.sumAll at hr
    have hl : ∀ (l : List (String × String)) (v : List ℝ), l.mapM (fun p => Kpinunu.brLong d np p.1 p.2) = .ok v → v.sum = 0 := by
      intro l
      induction l with
      | nil => intro v hv; rw [List.mapM_nil] at hv; cases hv; rfl
      | cons p l ih =>
        intro v hv
        rw [List.mapM_cons] at hv
        cases h1 : Kpinunu.brLong d np p.1 p.2 with
        | error e => rw [h1] at hv; cases hv
        | ok x =>
          rw [h1] at hv
          change (l.mapM (fun p => Kpinunu.brLong d np p.1 p.2) >>= fun b => pure (x :: b)) = _ at hv
          cases h2 : l.mapM (fun p => Kpinunu.brLong d np p.1 p.2) with
          | error e => rw [h2] at hv; cases hv
          | ok w =>
            rw [h2] at hv; cases hv
            rw [List.sum_cons, ih w h2, one _ _ _ h1, add_zero]
    cases h3 : Kpinunu.pairs.mapM (fun p => Kpinunu.brLong d np p.1 p.2) with
    | error e => rw [h3] at hr; cases hr
    | ok v => rw [h3] at hr; cases hr; exact hl _ v h3
  · intro d wc H hV hw
    have l : ∀ q, (Kpipi.lam d.V q).im = 0 := fun q => ((hV q 0).mul (by rw [hV q 1]; exact hV q 1) : IsReal (Kpipi.lam d.V q)).im
    exact Kpipi.C112_cp d wc H (l 0) (l 2) fun k => (hw k).im

/-! ## Electric dipole moments -/

/-- **C170 (electric dipole moments).** With real coefficients (and no three-gluon coupling `CGtilde`, which violates CP when real)
every registered electric dipole moment and precession frequency vanishes. -/
theorem C170_edm (d : Edm.Inp) (hw : RealWc d.wc) (hG : d.wc "CGtilde" = 0) : ∀ o ∈ Edm.registry d, ∀ x, o.2 = .ok x → x = 0 := by
  have key : ∀ {A : Type} (x : Except PyErr A) (g : A → Except PyErr ℝ), (∀ y, x = .ok y → ∀ r, g y = .ok r → r = 0) →
      ∀ r, (x >>= g) = .ok r → r = 0 := by
    intro A x g hg r hr
    cases x with
    | error e => cases hr
    | ok y => exact hg y rfl r hr
  have e1 : ∀ f eft x, Edm.edmF d f eft = .ok x → x = 0 := by
    intro f eft
    unfold Edm.edmF
    refine key _ _ fun m _ => key _ _ fun nf _ => key _ _ fun e _ r hr => ?_
    cases hr; rw [(hw _).im, mul_zero]
  have e2 : ∀ f eft x, Edm.cedmF d f eft = .ok x → x = 0 := by
    intro f eft
    unfold Edm.cedmF
    refine key _ _ fun m _ r hr => ?_
    cases hr; rw [(hw _).im, mul_zero]
  have e3 : ∀ Z N x, Edm.CSc d Z N = .ok x → x = 0 := by
    intro Z N
    unfold Edm.CSc
    refine key _ _ fun m _ => key _ _ fun r _ y hy => ?_
    cases hy
    simp only [(hw _).im]; ring
  have e4 : ∀ tab s x, Edm.para d tab s = .ok x → x = 0 := by
    intro tab s
    unfold Edm.para
    intro x hx
    cases hl : tab.lookup s with
    | none => rw [hl] at hx; cases hx
    | some zn =>
      rw [hl] at hx
      change (Edm.edmF d "e" "WET-3" >>= fun de => Edm.CSc d (zn.1 : ℕ) (zn.2.1 : ℕ) >>= fun cs =>
        pure (d.par ("alpha_de(" ++ s ++ ")") * de + d.par ("alpha_CS(" ++ s ++ ")") * cs)) = _ at hx
      refine key _ _ (fun de hde => key _ _ fun cs hcs y hy => ?_) x hx
      cases hy
      rw [e1 _ _ _ hde, e3 _ _ _ hcs]; ring
  intro o ho
  simp only [Edm.registry, List.cons_append, List.mem_cons, List.mem_append, List.mem_map] at ho
  rcases ho with rfl | ⟨t, _, rfl⟩ | ⟨t, _, rfl⟩
  · show ∀ x, Edm.nedm d = .ok x → x = 0
    unfold Edm.nedm
    refine key _ _ fun a ha => key _ _ fun b hb => key _ _ fun c hc => key _ _ fun e he => key _ _ fun f hf => key _ _ fun g hg y hy => ?_
    cases hy
    rw [e1 _ _ _ ha, e1 _ _ _ hb, e1 _ _ _ hc, e2 _ _ _ he, e2 _ _ _ hf, e2 _ _ _ hg, hG]
    simp
  · exact e4 _ _
  · exact e4 _ _

/-! ## Beta decay -/

/-- **C170 (beta decay).** With real couplings the correlations `D` and `R`, which are odd under time reversal, vanish for every
transition; in particular those of the neutron. -/
theorem C170_beta (C : Beta.Coup) (hV : IsReal C.V) (hA : IsReal C.A) (hS : IsReal C.S) (hT : IsReal C.T) :
    (∀ MF MGT J Jf x, Beta.fD C MF MGT J Jf = .ok x → x = 0) ∧ (∀ MF MGT J Jf s x, Beta.fR C MF MGT J Jf s = .ok x → x = 0) ∧
    (∀ x, Beta.nD C = .ok x → x = 0) ∧ (∀ x, Beta.nR C = .ok x → x = 0) := by
  obtain ⟨v, hv⟩ := hV.ex
  obtain ⟨a, ha⟩ := hA.ex
  obtain ⟨s, hs⟩ := hS.ex
  obtain ⟨t, ht⟩ := hT.ex
  have D : ∀ MF MGT J Jf x, Beta.fD C MF MGT J Jf = .ok x → x = 0 := by
    intro MF MGT J Jf x hx
    have z : Beta.bigDXi C MF MGT J Jf = 0 := by
      unfold Beta.bigDXi
      rw [hv, ha, hs, ht]
      have : ∀ c : ℝ, (((c : ℝ) : ℂ) * (2 * (s : ℂ) * conj (t : ℂ) - 2 * (v : ℂ) * conj (a : ℂ))) = ((c * (2 * s * t - 2 * v * a) : ℝ) : ℂ) := by
        intro c; simp only [conj_ofReal]; push_cast; ring
      rw [this, ofReal_im, mul_zero]
    unfold Beta.fD at hx
    rw [z] at hx
    unfold pyDiv at hx
    split_ifs at hx
    cases hx; simp
  have R : ∀ MF MGT J Jf σ x, Beta.fR C MF MGT J Jf σ = .ok x → x = 0 := by
    intro MF MGT J Jf σ x hx
    have z : ∀ y, Beta.bigRXi C MF MGT J Jf σ = .ok y → y = 0 := by
      intro y hy
      unfold Beta.bigRXi at hy
      cases hl : Beta.la Jf J with
      | error e => rw [hl] at hy; cases hy
      | ok l =>
        rw [hl] at hy
        cases hy
        rw [hv, ha, hs, ht]
        have : ∀ c e : ℝ, (((e : ℝ) : ℂ) * 2 * (t : ℂ) * conj (a : ℂ) + ((c : ℝ) : ℂ) * (2 * (s : ℂ) * conj (a : ℂ) - 2 * (v : ℂ) * conj (t : ℂ)))
            = ((e * 2 * t * a + c * (2 * s * a - 2 * v * t) : ℝ) : ℂ) := by
          intro c e; simp only [conj_ofReal]; push_cast; ring
        rw [this, ofReal_im, mul_zero]
    unfold Beta.fR at hx
    cases hy : Beta.bigRXi C MF MGT J Jf σ with
    | error e => rw [hy] at hx; cases hx
    | ok y =>
      rw [hy, z y hy] at hx
      change pyDiv 0 (Beta.xi C MF MGT) = _ at hx
      unfold pyDiv at hx
      split_ifs at hx
      cases hx; simp
  exact ⟨D, R, D _ _ _ _, R _ _ _ _ _⟩

/-! ## Radiative decays -/

/-- **C170 (radiative decays).** With real CKM factors and coefficients the direct CP asymmetries of `B → X_{s+d} γ` and
`B → V γ` vanish; so does the mixing-induced asymmetry of the latter for real `q/p` (`C170_mixing`). -/
theorem C170_radiative :
    (∀ d : Xgamma.Inp, (∀ b, RealWc (d.wc b)) → (∀ b, IsReal (d.xit b) ∧ IsReal (d.xiu b)) → IsReal d.Vcb → Xgamma.acp d 1.6 = .ok 0) ∧
    (∀ d : Vgamma.Inp, Vgamma.Phys d → ∀ B V, (B, V) ∈ Bvll.subRegistered → IsReal d.h.xit → d.C7 true = d.C7 false →
      d.C7p true = d.C7p false → d.dC7 true = d.dC7 false → d.h.ss true 0.001 = d.h.ss false 0.001 → IsReal d.qp →
      Vgamma.acp d B V = .ok 0 ∧ Vgamma.sObs d B V = .ok 0) := by
  constructor
  · intro d hw hx hc
    exact (Xgamma.C123_cp d "s").2.2 (fun b n => (hw b n).im) (fun b => ⟨(hx b).1.im, (hx b).2.im⟩) hc.im
  · intro d p B V hr hx h7 h7p hd hs hq
    obtain ⟨h1, a, b, h2⟩ := Vgamma.C125_cp_conserving p hr hx h7 h7p hd hs
    refine ⟨h1, ?_⟩
    unfold Vgamma.sObs
    rw [h2.2]
    show Except.ok _ = Except.ok _
    rw [(hq.neg.mul (isReal_of _)).im]

/-! ## Semi-leptonic `b → s l l` decays -/

theorem haFF_cp (d : Bvll.Inp) (q2 : ℝ) (hx : IsReal d.xit) (hw : d.wc true q2 = d.wc false q2) :
    Bvll.haFF d q2 true = Bvll.haFF d q2 false ∧ Bvll.haFFP d q2 true = Bvll.haFFP d q2 false := by
  have c : Bvll.conjPar d = d := by unfold Bvll.conjPar; rw [hx]
  constructor
  · unfold Bvll.haFF; simp only [c, hw, if_true, Bool.false_eq_true, if_false]
  · unfold Bvll.haFFP; simp only [c, hw, if_true, Bool.false_eq_true, if_false]

/-- **C170 (`B → V l l`).** If `ξ_t` is real and the effective coefficients and the spectator scattering are the same for the two
modes, both modes have the same amplitudes or raise the same exception; the angular distributions coincide, and all CP
asymmetries `A_i`, that of the rate and `A_T^{Im}` vanish, in both conventions. -/
theorem C170_vector (d : Bvll.Inp) (q2 : ℝ) (hx : IsReal d.xit) (hw : d.wc true q2 = d.wc false q2) (hs : d.ss true q2 = d.ss false q2)
    (B V : String) :
    (∀ e, Bvll.helicityAmps d B V q2 true = .error e ↔ Bvll.helicityAmps d B V q2 false = .error e) ∧
    ∀ H Hb, Bvll.helicityAmps d B V q2 false = .ok H → Bvll.helicityAmps d B V q2 true = .ok Hb →
      let J := Angular.angularV H q2 d.mB d.mM d.ml d.ml
      let Jb := Angular.angularV Hb q2 d.mB d.mM d.ml d.ml
      J = Jb ∧ Angular.dGdq2Diff J Jb = 0 ∧ Angular.atImNum J Jb = 0 ∧ ∀ i, Angular.aTheory J Jb i = 0 ∧ Angular.aExp J Jb i = 0 := by
  obtain ⟨h1, _⟩ := haFF_cp d q2 hx hw
  have E : Bvll.helicityAmps d B V q2 true = Bvll.helicityAmps d B V q2 false := by
    unfold Bvll.helicityAmps
    have s : Bvll.getSS d B V q2 true = Bvll.getSS d B V q2 false := by unfold Bvll.getSS; rw [hs]
    have t : Bvll.getSub d B V q2 true = Bvll.getSub d B V q2 false := rfl
    rw [s, t, h1]
  refine ⟨fun e => by rw [E], fun H Hb h h' => ?_⟩
  rw [E, h] at h'
  cases h'
  simp only
  generalize Angular.angularV H q2 d.mB d.mM d.ml d.ml = J
  have z : ∀ i, Angular.aTheoryNum J J i = 0 := fun i => sub_self _
  have z2 : ∀ i, Angular.aExpNum J J i = 0 := by intro i; unfold Angular.aExpNum; rw [z]; simp
  refine ⟨trivial, ?_, ?_, fun i => ⟨?_, ?_⟩⟩
  · unfold Angular.dGdq2Diff; rw [sub_self, zero_div]
  · unfold Angular.atImNum; rw [z2, zero_div]
  · unfold Angular.aTheory; rw [z, zero_div]
  · unfold Angular.aExp; rw [z2, zero_div]

/-- **C170 (`B → P l l`).** The same for a pseudoscalar: no asymmetry of the rate, of the forward-backward asymmetry or of `F_H`. -/
theorem C170_pseudoscalar (d : Bvll.Inp) (q2 : ℝ) (hx : IsReal d.xit) (hw : d.wc true q2 = d.wc false q2) (isPi : Bool) (B P : String) :
    (∀ e, Bvll.helicityAmpsP d isPi B P q2 true = .error e ↔ Bvll.helicityAmpsP d isPi B P q2 false = .error e) ∧
    ∀ H Hb, Bvll.helicityAmpsP d isPi B P q2 false = .ok H → Bvll.helicityAmpsP d isPi B P q2 true = .ok Hb →
      let J := Angular.angularP H q2 d.mB d.mM d.ml d.ml
      let Jb := Angular.angularP Hb q2 d.mB d.mM d.ml d.ml
      J = Jb ∧ Angular.cpDiff Angular.dGdq2P J Jb = 0 ∧ Angular.cpDiff Angular.afbNumP J Jb = 0 ∧ Angular.cpDiff Angular.fhNumP J Jb = 0 := by
  obtain ⟨_, h2⟩ := haFF_cp d q2 hx hw
  have E : Bvll.helicityAmpsP d isPi B P q2 true = Bvll.helicityAmpsP d isPi B P q2 false := by
    unfold Bvll.helicityAmpsP
    have t : Bvll.getSubP d isPi B P q2 true = Bvll.getSubP d isPi B P q2 false := rfl
    rw [t, h2]
  refine ⟨fun e => by rw [E], fun H Hb h h' => ?_⟩
  rw [E, h] at h'
  cases h'
  have z : ∀ (f : Angular.JP → ℝ) J, Angular.cpDiff f J J = 0 := by intro f J; unfold Angular.cpDiff; rw [sub_self, zero_div]
  exact ⟨rfl, z _ _, z _ _, z _ _⟩

/-! ## Triple products -/

/-- The amplitudes of a decay without strong and weak phases: vector, axial, scalar and pseudoscalar ones are imaginary, tensor ones
real. (Specification.) -/
structure Phased (H : Angular.AmpV) : Prop where
  v : ∀ z ∈ [H.plV, H.miV, H.zeV, H.plA, H.miA, H.zeA, H.S, H.P], conj z = -z
  t : ∀ z ∈ [H.plT, H.miT, H.zeT, H.plTt, H.miTt, H.zeTt], conj z = z

theorem triple_zero {H : Angular.AmpV} (h : Phased H) (q2 mB mV m1 m2 : ℝ) :
    (Angular.angularV H q2 mB mV m1 m2).j7 = 0 ∧ (Angular.angularV H q2 mB mV m1 m2).j8 = 0 ∧ (Angular.angularV H q2 mB mV m1 m2).j9 = 0 := by
  obtain ⟨hv, ht⟩ := h
  simp only [List.mem_cons, List.not_mem_nil, or_false, forall_eq_or_imp, forall_eq] at hv ht
  obtain ⟨a1, a2, a3, a4, a5, a6, a7, a8⟩ := hv
  obtain ⟨b1, b2, b3, b4, b5, b6⟩ := ht
  have g1 : ∀ la E1 E2, (Angular.g211 H la E1 E2 m1 m2 q2).im = 0 := by
    intro la E1 E2
    refine IsReal.im ?_
    unfold IsReal Angular.g211
    simp only [map_add, map_sub, map_mul, map_div₀, map_neg, conj_conj, conj_ofReal, conj_I, map_ofNat, a1, a2, a3, a4, a5, a6, a7, a8, b1, b2, b3,
      b4, b5, b6]
    ring
  have g2 : ∀ la E1 E2, (Angular.g221 H la E1 E2 m1 m2 q2).im = 0 := by
    intro la E1 E2
    refine IsReal.im ?_
    unfold IsReal Angular.g221
    simp only [map_add, map_sub, map_mul, map_div₀, map_neg, conj_conj, conj_ofReal, conj_I, map_ofNat, a1, a2, a3, a4, a5, a6, a7, a8, b1, b2, b3,
      b4, b5, b6]
    ring
  have g3 : ∀ la E1 E2, (Angular.g222 H la E1 E2 m1 m2 q2).im = 0 := by
    intro la E1 E2
    refine IsReal.im ?_
    unfold IsReal Angular.g222
    simp only [map_add, map_sub, map_mul, map_div₀, map_neg, conj_conj, conj_ofReal, conj_I, map_ofNat, a1, a2, a3, a4, a5, a6, a7, a8, b1, b2, b3,
      b4, b5, b6]
    ring
  simp only [Angular.angularV, Angular.signflip, Angular.gToG, Angular.gbasisV, Angular.gbasisV0, Angular.GV.scale, im_ofReal_mul, g1, g2, g3,
    mul_zero, and_self]

theorem helV1_phased {w : Angular.Wc} (hw : ∀ z ∈ [w.c7, w.c7p, w.v, w.vp, w.a, w.ap, w.s, w.sp, w.p, w.pp, w.t, w.tp], IsReal z)
    (q2 mB mV mqh mql m1 m2 : ℝ) (ff : Angular.FFV) : Phased (Angular.helV1 q2 mB mV mqh mql m1 m2 ff w) := by
  simp only [List.mem_cons, List.not_mem_nil, or_false, forall_eq_or_imp, forall_eq, IsReal] at hw
  obtain ⟨h1, h2, h3, h4, h5, h6, h7, h8, h9, h10, h11, h12⟩ := hw
  constructor
  · simp only [List.mem_cons, List.not_mem_nil, or_false, forall_eq_or_imp, forall_eq]
    refine ⟨?_, ?_, ?_, ?_, ?_, ?_, ?_, ?_⟩ <;>
    · simp only [Angular.helV1, Angular.transAmp, Angular.dipAmp, map_add, map_sub, map_mul, map_div₀, conj_ofReal, conj_I, map_ofNat,
        h1, h2, h3, h4, h5, h6, h7, h8, h9, h10, h11, h12]
      ring
  · simp only [List.mem_cons, List.not_mem_nil, or_false, forall_eq_or_imp, forall_eq]
    refine ⟨?_, ?_, ?_, ?_, ?_, ?_⟩ <;>
    · simp only [Angular.helV1, Angular.tenAmp, map_add, map_sub, map_mul, map_div₀, conj_ofReal, conj_I, map_ofNat,
        h1, h2, h3, h4, h5, h6, h7, h8, h9, h10, h11, h12]

/-- **C170 (triple products).** The coefficients `J7`, `J8` and `J9` of `B → V l ν`, which are odd under time reversal, and with them
the `sin 2φ` part of the distribution in the azimuthal angle, vanish for real Wilson coefficients, whatever the phase of the CKM
element, the masses, the form factors and `q2`; and in general for all amplitudes computed from real coefficients. -/
theorem C170_triple (d : Semilep.Vec.VInp) (l : Fin 3)
    (hw : ∀ n, IsReal (d.wc l n).VL ∧ IsReal (d.wc l n).VR ∧ IsReal (d.wc l n).SR ∧ IsReal (d.wc l n).SL ∧ IsReal (d.wc l n).T) (q2 : ℝ) :
    (Semilep.Vec.jSumV d l q2).j7 = 0 ∧ (Semilep.Vec.jSumV d l q2).j8 = 0 ∧ (Semilep.Vec.jSumV d l q2).j9 = 0 ∧
    (Semilep.Vec.dGphi (Semilep.Vec.jSumV d l q2)).2.2 = 0 ∧
    ∀ (w : Angular.Wc) (N : ℂ) (mB mV mqh mql m1 m2 : ℝ) (ff : Angular.FFV),
      (∀ z ∈ [w.c7, w.c7p, w.v, w.vp, w.a, w.ap, w.s, w.sp, w.p, w.pp, w.t, w.tp], IsReal z) →
      let J := Angular.angularV (Angular.helicityV q2 mB mV mqh mql m1 m2 ff w N) q2 mB mV m1 m2
      J.j7 = 0 ∧ J.j8 = 0 ∧ J.j9 = 0 := by
  have G : ∀ (w : Angular.Wc) (N : ℂ) (mB mV mqh mql m1 m2 : ℝ) (ff : Angular.FFV),
      (∀ z ∈ [w.c7, w.c7p, w.v, w.vp, w.a, w.ap, w.s, w.sp, w.p, w.pp, w.t, w.tp], IsReal z) →
      let J := Angular.angularV (Angular.helicityV q2 mB mV mqh mql m1 m2 ff w N) q2 mB mV m1 m2
      J.j7 = 0 ∧ J.j8 = 0 ∧ J.j9 = 0 := by
    intro w N mB mV mqh mql m1 m2 ff h
    obtain ⟨k7, k8, k9⟩ := triple_zero (helV1_phased h q2 mB mV mqh mql m1 m2 ff) q2 mB mV m1 m2
    simp only [Angular.helicityV, Angular.angularV_scale, Angular.JV.scale, k7, k8, k9, mul_zero, and_self]
  have one : ∀ n, (Semilep.Vec.jOneV d l q2 n).j7 = 0 ∧ (Semilep.Vec.jOneV d l q2 n).j8 = 0 ∧ (Semilep.Vec.jOneV d l q2 n).j9 = 0 := by
    intro n
    unfold Semilep.Vec.jOneV
    split_ifs
    · exact ⟨rfl, rfl, rfl⟩
    · refine G _ _ _ _ _ _ _ _ _ ?_
      obtain ⟨w1, w2, w3, w4, w5⟩ := hw n
      have c : IsReal (Semilep.Vec.csmV d l n) := by
        unfold Semilep.Vec.csmV; split_ifs
        · exact isReal_of _
        · exact map_zero _
      have two : IsReal (2 : ℂ) := by exact_mod_cast isReal_of 2
      have z : IsReal (0 : ℂ) := map_zero _
      simp only [Semilep.wcEff, List.mem_cons, List.not_mem_nil, or_false, forall_eq_or_imp, forall_eq]
      exact ⟨z, z, (c.add w1).div two, w2.div two, (c.add w1).neg.div two, w2.neg.div two, w3.div two, w4.div two, w3.neg.div two,
        w4.neg.div two, z, w5⟩
  have s7 : (Semilep.Vec.jSumV d l q2).j7 = 0 := by
    show ∑ n, (Semilep.Vec.jOneV d l q2 n).j7 = 0
    exact Finset.sum_eq_zero fun n _ => (one n).1
  have s8 : (Semilep.Vec.jSumV d l q2).j8 = 0 := by
    show ∑ n, (Semilep.Vec.jOneV d l q2 n).j8 = 0
    exact Finset.sum_eq_zero fun n _ => (one n).2.1
  have s9 : (Semilep.Vec.jSumV d l q2).j9 = 0 := by
    show ∑ n, (Semilep.Vec.jOneV d l q2 n).j9 = 0
    exact Finset.sum_eq_zero fun n _ => (one n).2.2
  refine ⟨s7, s8, s9, ?_, G⟩
  unfold Semilep.Vec.dGphi
  simp only [s9, mul_zero]

/-! ## The hypotheses are met -/

/-- A real rotation between the second and the third generation. (Specification.) -/
noncomputable def rot : Mat := fun i j =>
  if i = 0 ∧ j = 0 then 1 else if i = 1 ∧ j = 1 then 3 / 5 else if i = 2 ∧ j = 2 then 3 / 5
  else if i = 1 ∧ j = 2 then 4 / 5 else if i = 2 ∧ j = 1 then -4 / 5 else 0

example : RealMat rot := by
  have e : ∀ r : ℝ, IsReal (r : ℂ) := isReal_of
  intro i j
  unfold rot
  split_ifs
  · exact_mod_cast e 1
  · have := e (3 / 5); push_cast at this; exact this
  · have := e (3 / 5); push_cast at this; exact this
  · have := e (4 / 5); push_cast at this; exact this
  · have := e (-4 / 5); push_cast at this; exact this
  · exact_mod_cast e 0

example : RealWc (fun n => if n = "CVLL_bsbs" then 2 else 0) := by
  intro n
  show IsReal _
  simp only
  split_ifs
  · exact_mod_cast isReal_of 2
  · exact_mod_cast isReal_of 0

example (q : Mixing.Inputs) : ∃ M G, Mixing.getM12G12 "ct" rot q .D0 (fun _ => 0) = .ok (M, G) := ⟨_, _, rfl⟩

example : ∃ C : Beta.Coup, IsReal C.V ∧ IsReal C.A ∧ IsReal C.S ∧ IsReal C.T ∧ Beta.nD C = .ok 0 := by
  have e1 : IsReal (1 : ℂ) := by exact_mod_cast isReal_of 1
  have e0 : IsReal (0 : ℂ) := map_zero _
  refine ⟨⟨1, 1, 0, 0, 0⟩, e1, e1, e0, e0, ?_⟩
  obtain ⟨x, hx⟩ : ∃ x, Beta.nD ⟨1, 1, 0, 0, 0⟩ = .ok x := by
    unfold Beta.nD Beta.fD pyDiv
    rw [if_neg]
    · exact ⟨_, rfl⟩
    · simp [Beta.xi]; norm_num
  rw [hx, (C170_beta ⟨1, 1, 0, 0, 0⟩ e1 e1 e0 e0).2.2.1 x hx]

end Verif.CpConserving
