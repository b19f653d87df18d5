import Verif.Physics.Bdecays.Bll
import Verif.Physics.Bvll.Lfv
import Verif.Physics.Angular.BinsP
import Verif.Physics.Kdecays.Kll
import Verif.Physics.Quarkonium.Pll
import Verif.Physics.Quarkonium.Vllgamma
import Verif.Physics.Taudecays.ThreeLeptons
import Verif.Physics.Taudecays.Widths
import Verif.Physics.Dipoles.MuE
import Verif.Physics.Zdecays.Z
/-!
# Rates that violate lepton flavour are quadratic in the couplings that violate it

Nothing in the Standard Model of flavio changes the flavour of charged leptons: if all coefficients of the sector are multiplied
by a real number, the rate is multiplied by its square, and in particular it vanishes exactly with them.
-/
set_option linter.unusedVariables false
set_option linter.unusedSimpArgs false
namespace Verif.LfvZero
open Verif.Py Verif.Running Complex
local notation "conj" => starRingEnd ℂ

/-- All coefficients multiplied by a number. (Specification.) -/
def scaled (t : ℝ) (wc : String → ℂ) : String → ℂ := fun n => (t : ℂ) * wc n
/-- A result multiplied by a number; errors stay the same. (Specification.) -/
def times (a : ℝ) : Except PyErr ℝ → Except PyErr ℝ
  | .ok x => .ok (a * x)
  | .error e => .error e

theorem bind_times {A : Type} (a : ℝ) (x : Except PyErr A) (f g : A → Except PyErr ℝ) (h : ∀ y, f y = times a (g y)) :
    (x >>= f) = times a (x >>= g) := by
  cases x with
  | error e => rfl
  | ok y => exact h y

theorem bind_two {a : ℝ} {x x' y y' : Except PyErr ℝ} (hx : x' = times a x) (hy : y' = times a y) :
    (x' >>= fun u => y' >>= fun v => (.ok (u + v) : Except PyErr ℝ)) = times a (x >>= fun u => y >>= fun v => .ok (u + v)) := by
  subst hx hy
  cases x with
  | error e => rfl
  | ok u =>
    cases y with
    | error e => rfl
    | ok v => show Except.ok _ = Except.ok _; congr 1; ring

theorem nsq_t (t : ℝ) (z : ℂ) : ‖(t : ℂ) * z‖ ^ 2 = t ^ 2 * ‖z‖ ^ 2 := by
  rw [norm_mul, mul_pow, norm_real, Real.norm_eq_abs, sq_abs]
theorem re_t (t : ℝ) (z w : ℂ) : ((t : ℂ) * z * conj ((t : ℂ) * w)).re = t ^ 2 * (z * conj w).re := by
  rw [map_mul, conj_ofReal, show (t : ℂ) * z * ((t : ℂ) * conj w) = ((t ^ 2 : ℝ) : ℂ) * (z * conj w) by push_cast; ring, re_ofReal_mul]
theorem im_t (t : ℝ) (z w : ℂ) : ((t : ℂ) * z * conj ((t : ℂ) * w)).im = t ^ 2 * (z * conj w).im := by
  rw [map_mul, conj_ofReal, show (t : ℂ) * z * ((t : ℂ) * conj w) = ((t ^ 2 : ℝ) : ℂ) * (z * conj w) by push_cast; ring, im_ofReal_mul]

/-- Nothing remains of the rate if the couplings vanish. -/
theorem times_zero {x : Except PyErr ℝ} {v : ℝ} (h : times (0 ^ 2) x = .ok v) : v = 0 := by
  cases x with
  | error e => cases h
  | ok y => cases h; ring

/-! ## Neutral mesons to two leptons -/

theorem bll_amp (q : Bll.Inputs) (wc : String → ℂ) (B : Bll.BMes) (l1 l2 : Bll.Lep) (t : ℝ) (f g : ℂ × ℂ → Except PyErr ℝ) (a : ℝ)
    (h : ∀ p s, f ((t : ℂ) * p, (t : ℂ) * s) = times a (g (p, s))) :
    (Bll.amplitudes q (scaled t wc) B l1 l2 >>= f) = times a (Bll.amplitudes q wc B l1 l2 >>= g) := by
  simp only [Bll.amplitudes, bind_assoc]
  refine bind_times _ _ _ _ fun xm => bind_times _ _ _ _ fun bm => bind_times _ _ _ _ fun xp => bind_times _ _ _ _ fun bp =>
    bind_times _ _ _ _ fun r => ?_
  refine Eq.trans ?_ (h _ _)
  show f (_, _) = _
  congr 2 <;> (simp only [Bll.minus, scaled]; ring)

theorem bll (q : Bll.Inputs) (wc : String → ℂ) (B : Bll.BMes) (l1 l2 : Bll.Lep) (t : ℝ) :
    Bll.brInst q (scaled t wc) B l1 l2 = times (t ^ 2) (Bll.brInst q wc B l1 l2) := by
  simp only [Bll.brInst]
  refine bind_times _ _ _ _ fun N => bind_times _ _ _ _ fun sl => bind_times _ _ _ _ fun beta => bll_amp _ _ _ _ _ _ _ _ _ fun p s => ?_
  show Except.ok _ = Except.ok _
  congr 1
  simp only [nsq_t]; ring

/-- **C171 (`B⁰, B_s → l l'`).** The branching ratio and its sum over charges, computed from the coefficients of the two sectors. -/
theorem C171_bll (q : Bll.Inputs) (totWc getWc : String → String → ℂ) (B : Bll.BMes) (l1 l2 : Bll.Lep) (h : l1 ≠ l2) (t : ℝ) :
    Bll.bqllObs Bll.brInst totWc (fun s => scaled t (getWc s)) q B l1 l2 = times (t ^ 2) (Bll.bqllObs Bll.brInst totWc getWc q B l1 l2) ∧
    Bll.lsum Bll.brInst (fun s => scaled t (getWc s)) q B l1 l2 = times (t ^ 2) (Bll.lsum Bll.brInst getWc q B l1 l2) ∧
    (∀ v, (∀ s n, getWc s n = 0) → Bll.lsum Bll.brInst getWc q B l1 l2 = .ok v → v = 0) ∧
    (∀ v, (∀ s n, getWc s n = 0) → Bll.bqllObs Bll.brInst totWc getWc q B l1 l2 = .ok v → v = 0) := by
  have h1 : ∀ (getWc : String → String → ℂ) (t : ℝ), Bll.bqllObs Bll.brInst totWc (fun s => scaled t (getWc s)) q B l1 l2
      = times (t ^ 2) (Bll.bqllObs Bll.brInst totWc getWc q B l1 l2) := fun getWc t => by
    simp only [Bll.bqllObs, if_neg h]; exact bll _ _ _ _ _ _
  have h2 : ∀ (getWc : String → String → ℂ) (t : ℝ), Bll.lsum Bll.brInst (fun s => scaled t (getWc s)) q B l1 l2
      = times (t ^ 2) (Bll.lsum Bll.brInst getWc q B l1 l2) := fun getWc t => by
    simp only [Bll.lsum, if_neg h]; exact bind_two (bll _ _ _ _ _ _) (bll _ _ _ _ _ _)
  have z : (∀ s n, getWc s n = 0) → (fun s => scaled 0 (getWc s)) = getWc := fun hz => by
    funext s n; simp only [scaled, hz]; simp
  refine ⟨h1 _ _, h2 _ _, fun v hz hv => ?_, fun v hz hv => ?_⟩
  · have := h2 getWc 0; rw [z hz] at this; rw [this] at hv; exact times_zero hv
  · have := h1 getWc 0; rw [z hz] at this; rw [this] at hv; exact times_zero hv

theorem kll (d : Kll.Inp) (np : String → ℂ) (K l1 l2 : String) (ld : Bool) (h : l1 ≠ l2) (t : ℝ) :
    Kll.brKll d (scaled t np) K l1 l2 ld = times (t ^ 2) (Kll.brKll d np K l1 l2 ld) := by
  simp only [Kll.brKll, Kll.getWc, if_neg h, Kll.amplitudesEff, Kll.amplitudes, Kll.ldPart, bind_assoc]
  show ((_ : Except PyErr ℝ) >>= _) = times _ ((_ : Except PyErr ℝ) >>= _)
  refine bind_times _ _ _ _ fun sl => bind_times _ _ _ _ fun beta => bind_times _ _ _ _ fun rp => bind_times _ _ _ _ fun bp =>
    bind_times _ _ _ _ fun rm => bind_times _ _ _ _ fun bm => bind_times _ _ _ _ fun x => bind_times _ _ _ _ fun y => ?_
  simp only [h, ne_eq, not_false_eq_true, true_or, if_true, and_false, if_false]
  by_cases hK : K = "KL"
  · simp only [hK, if_true]
    show Except.ok _ = Except.ok _
    congr 1
    have e1 : ∀ (a b c d r m : ℂ), d * (r * ((t : ℂ) * a - t * b) + m * (t * c - t * 0)) = (t : ℂ) * (d * (r * (a - b) + m * (c - 0))) := by
      intros; ring
    have e : ∀ (xi r m a b c d : ℂ), xi * (r * ((t : ℂ) * a - (t : ℂ) * b) + m * ((t : ℂ) * c - (t : ℂ) * d)) =
        (t : ℂ) * (xi * (r * (a - b) + m * (c - d))) := by intros; ring
    simp only [scaled, e, re_ofReal_mul, im_ofReal_mul, add_zero, norm_real, Real.norm_eq_abs, sq_abs]
    ring
  · simp only [hK, if_false]; rfl

/-- **C171 (`K_L, K_S → l l'`).** -/
theorem C171_kll (d : Kll.Inp) (np : String → ℂ) (K l1 l2 : String) (h : l1 ≠ l2) (t : ℝ) :
    Kll.predOne d (scaled t np) K l1 l2 = times (t ^ 2) (Kll.predOne d np K l1 l2) ∧
    Kll.predSum d (scaled t np) K l1 l2 = times (t ^ 2) (Kll.predSum d np K l1 l2) ∧
    (∀ v, (∀ n, np n = 0) → Kll.predSum d np K l1 l2 = .ok v → v = 0) := by
  have h2 : ∀ (np : String → ℂ) (t : ℝ), Kll.predSum d (scaled t np) K l1 l2 = times (t ^ 2) (Kll.predSum d np K l1 l2) := fun np t =>
    bind_two (kll d np K l1 l2 true h t) (kll d np K l2 l1 true (Ne.symm h) t)
  refine ⟨kll d np K l1 l2 true h t, h2 _ _, fun v hz hv => ?_⟩
  have := h2 np 0
  rw [show scaled 0 np = np by funext n; simp only [scaled, hz]; simp] at this
  rw [this] at hv; exact times_zero hv

/-! ## Semi-leptonic B decays -/

/-- **C171 (`B → V l l'`, `B → P l l'`).** Exactly zero without couplings, whatever the integrator returns. -/
theorem C171_semileptonic :
    (∀ (nint : Angular.Nint) (d1 d2 : BvllLfv.Inp) (s1 s2 : String), (∀ n, d1.wc n = 0) → (∀ n, d2.wc n = 0) →
      BvllLfv.brTot nint d1 s1 = 0 ∧ BvllLfv.brSum nint d1 d2 s1 s2 = 0) ∧
    (∀ (nint : Angular.Nint) (wc wc' : List ℂ) (d d' : Angular.PDecay), (∀ v ∈ wc, v = 0) → (∀ v ∈ wc', v = 0) →
      Angular.lfvTot nint wc d = 0 ∧ Angular.lfvComb nint wc wc' d d' = 0) := by
  have hB : ∀ (nint : Angular.Nint) (d : BvllLfv.Inp) (s : String), (∀ n, d.wc n = 0) → BvllLfv.brTot nint d s = 0 := by
    intro nint d s h
    unfold BvllLfv.brTot
    rw [if_pos]
    intro k _; rw [h, norm_zero]; norm_num
  have hP : ∀ (nint : Angular.Nint) (wc : List ℂ) (d : Angular.PDecay) (a b e : ℝ), (∀ v ∈ wc, v = 0) →
      Angular.lfvInt nint wc d a b e = 0 := by
    intro nint wc d a b e h
    unfold Angular.lfvInt
    rw [if_pos]
    intro v hv; rw [h v hv, norm_zero]; norm_num
  refine ⟨fun nint d1 d2 s1 s2 h1 h2 => ⟨hB _ _ _ h1, ?_⟩, fun nint wc wc' d d' h h' => ⟨?_, ?_⟩⟩
  · unfold BvllLfv.brSum; rw [hB _ _ _ h1, hB _ _ _ h2, add_zero]
  · unfold Angular.lfvTot; rw [hP _ _ _ _ _ _ h, zero_mul]
  · unfold Angular.lfvComb; rw [hP _ _ _ _ _ _ h, hP _ _ _ _ _ _ h', add_zero, zero_mul]

/-! ## Decays of charged leptons -/

/-- Effective coefficients multiplied by a number. (Specification.) -/
def wscaled (t : ℝ) (w : Tau3l.Weff) : Tau3l.Weff where
  C7 := t * w.C7
  C7p := t * w.C7p
  VLL := t * w.VLL
  VLR := t * w.VLR
  VRL := t * w.VRL
  VRR := t * w.VRR
  SLL := t * w.SLL
  SLR := t * w.SLR
  SRL := t * w.SRL
  SRR := t * w.SRR
  TLL := t * w.TLL
  TRR := t * w.TRR

/-- All sectors of the input multiplied by a number. (Specification.) -/
def inpScaled (t : ℝ) (d : Tau3l.Inp) : Tau3l.Inp :=
  { d with getWc := fun s => d.getWc s >>= fun wc => .ok (scaled t wc) }

theorem cases_scaled (wc : String → ℂ) (x t : ℝ) (l0 l1 l2 l3 : String) :
    Tau3l.cases (scaled t wc) x l0 l1 l2 l3 = Tau3l.cases wc x l0 l1 l2 l3 >>= fun w => .ok (wscaled t w) := by
  have hs : ∀ a b, Tau3l.same (scaled t wc) x a b = wscaled t (Tau3l.same wc x a b) := fun a b => by
    simp only [Tau3l.same, wscaled, scaled, map_mul, conj_ofReal, mul_zero, Tau3l.Weff.mk.injEq]
    try (refine ⟨?_, ?_, ?_, ?_, ?_, ?_, ?_, ?_, ?_, ?_, ?_, ?_⟩ <;> first | trivial | ring1)
  have h1 : Tau3l.muee (scaled t wc) x = wscaled t (Tau3l.muee wc x) := by
    simp only [Tau3l.muee, wscaled, scaled, map_mul, conj_ofReal, mul_zero, Tau3l.Weff.mk.injEq]
    try (refine ⟨?_, ?_, ?_, ?_, ?_, ?_, ?_, ?_, ?_, ?_, ?_, ?_⟩ <;> first | trivial | ring1)
  have h2 : Tau3l.emumu (scaled t wc) x = wscaled t (Tau3l.emumu wc x) := by
    simp only [Tau3l.emumu, wscaled, scaled, map_mul, conj_ofReal, mul_zero, Tau3l.Weff.mk.injEq]
    try (refine ⟨?_, ?_, ?_, ?_, ?_, ?_, ?_, ?_, ?_, ?_, ?_, ?_⟩ <;> first | trivial | ring1)
  have h3 : Tau3l.emue (scaled t wc) = wscaled t (Tau3l.emue wc) := by
    simp only [Tau3l.emue, wscaled, scaled, map_mul, conj_ofReal, mul_zero, Tau3l.Weff.mk.injEq]
    try (refine ⟨?_, ?_, ?_, ?_, ?_, ?_, ?_, ?_, ?_, ?_, ?_, ?_⟩ <;> first | trivial | ring1)
  have h4 : Tau3l.muemu (scaled t wc) = wscaled t (Tau3l.muemu wc) := by
    simp only [Tau3l.muemu, wscaled, scaled, map_mul, conj_ofReal, mul_zero, Tau3l.Weff.mk.injEq]
    try (refine ⟨?_, ?_, ?_, ?_, ?_, ?_, ?_, ?_, ?_, ?_, ?_, ?_⟩ <;> first | trivial | ring1)
  unfold Tau3l.cases
  rw [hs, hs, hs, h1, h2, h3, h4]
  split_ifs <;> rfl

theorem rate3 (m m' t : ℝ) (w : Tau3l.Weff) :
    Tau3l.brTau3mu m m' (wscaled t w) = t ^ 2 * Tau3l.brTau3mu m m' w ∧
    Tau3l.brTaumuee m m' (wscaled t w) = t ^ 2 * Tau3l.brTaumuee m m' w ∧
    Tau3l.brTaumuemu (wscaled t w) = t ^ 2 * Tau3l.brTaumuemu w := by
  have e1 : ∀ a b c e f g : ℂ, ((t : ℂ) * a * conj (2 * ((t : ℂ) * b) + (t : ℂ) * c) + (t : ℂ) * e * conj ((t : ℂ) * f + 2 * ((t : ℂ) * g))).re
      = t ^ 2 * (a * conj (2 * b + c) + e * conj (f + 2 * g)).re := by
    intro a b c e f g
    rw [show (t : ℂ) * a * conj (2 * ((t : ℂ) * b) + (t : ℂ) * c) + (t : ℂ) * e * conj ((t : ℂ) * f + 2 * ((t : ℂ) * g))
      = ((t ^ 2 : ℝ) : ℂ) * (a * conj (2 * b + c) + e * conj (f + 2 * g)) by
        simp only [map_add, map_mul, conj_ofReal]; push_cast; ring, re_ofReal_mul]
  have e2 : ∀ a b c e f g : ℂ, ((t : ℂ) * a * conj ((t : ℂ) * b + (t : ℂ) * c) + (t : ℂ) * e * conj ((t : ℂ) * f + (t : ℂ) * g)).re
      = t ^ 2 * (a * conj (b + c) + e * conj (f + g)).re := by
    intro a b c e f g
    rw [show (t : ℂ) * a * conj ((t : ℂ) * b + (t : ℂ) * c) + (t : ℂ) * e * conj ((t : ℂ) * f + (t : ℂ) * g)
      = ((t ^ 2 : ℝ) : ℂ) * (a * conj (b + c) + e * conj (f + g)) by
        simp only [map_add, map_mul, conj_ofReal]; push_cast; ring, re_ofReal_mul]
  refine ⟨?_, ?_, ?_⟩
  · simp only [Tau3l.brTau3mu, wscaled, nsq_t, e1]; ring
  · simp only [Tau3l.brTaumuee, wscaled, nsq_t, e2]; ring
  · simp only [Tau3l.brTaumuemu, wscaled, nsq_t]; ring

/-- **C171 (`τ → 3 l`, `μ → 3 e`).** -/
theorem C171_three_leptons (d : Tau3l.Inp) (l1 l2 l3 : String) (t : ℝ) :
    Tau3l.br (inpScaled t d) l1 l2 l3 = times (t ^ 2) (Tau3l.br d l1 l2 l3) ∧
    Tau3l.brMu3e (inpScaled t d) = times (t ^ 2) (Tau3l.brMu3e d) := by
  have key : ∀ (l0 l1 l2 l3 : String) (f g : Tau3l.Weff → Except PyErr ℝ), (∀ w, f (wscaled t w) = times (t ^ 2) (g w)) →
      (Tau3l.wcEff (inpScaled t d) l0 l1 l2 l3 >>= f) = times (t ^ 2) (Tau3l.wcEff d l0 l1 l2 l3 >>= g) := by
    intro l0 l1 l2 l3 f g h
    simp only [Tau3l.wcEff, bind_assoc, inpScaled]
    refine bind_times _ _ _ _ fun sec => bind_times _ _ _ _ fun wc => ?_
    show (Tau3l.cases (scaled t wc) _ _ _ _ _ >>= f) = _
    rw [cases_scaled, bind_assoc]
    exact bind_times _ _ _ _ fun w => h w
  constructor
  · refine key _ _ _ _ _ _ fun w => ?_
    unfold Tau3l.rateOf
    rw [(rate3 _ _ t w).2.1, (rate3 _ _ t w).2.1, (rate3 _ _ t w).1, (rate3 _ _ t w).1, (rate3 0 0 t w).2.2]
    simp only [inpScaled]
    split_ifs <;> first
      | rfl
      | (show Except.ok _ = Except.ok _; congr 1; ring)
  · refine key _ _ _ _ _ _ fun w => ?_
    show Except.ok _ = Except.ok _
    rw [(rate3 _ _ t w).1]
    congr 1
    simp only [inpScaled]; ring

theorem fsf (M ms mf t : ℝ) (a b : ℂ) : Tau.gammaFsf M ms mf (t * a) (t * b) = t ^ 2 * Tau.gammaFsf M ms mf a b := by
  simp only [Tau.gammaFsf, Tau.gamma, nsq_t, re_ofReal_mul, im_ofReal_mul]; ring

theorem gate {m P Q P' Q' : Prop} [Decidable m] [Decidable P] [Decidable Q] [Decidable P'] [Decidable Q'] [Decidable (P ∧ Q)] [Decidable (P' ∧ Q')]
    (hP : P' ↔ P) (hQ : Q' ↔ Q) (s a b c a' b' c' : ℝ) :
    (if m then (if P' then s * a else 0) + (if Q' then s * b else 0) + (if P' ∧ Q' then s * c else 0)
      else (if P' then s * a' else 0) + (if Q' then s * b' else 0) + (if P' ∧ Q' then s * c' else 0)) =
    s * (if m then (if P then a else 0) + (if Q then b else 0) + (if P ∧ Q then c else 0)
      else (if P then a' else 0) + (if Q then b' else 0) + (if P ∧ Q then c' else 0)) := by
  by_cases h1 : m <;> by_cases h2 : P <;> by_cases h3 : Q <;>
    simp [h1, h2, h3, hP.2, hQ.2, hP, hQ] <;> ring

theorem fvf (M mv mf t : ℝ) (a b c e f g : ℂ) :
    Tau.gammaFvf M mv mf ⟨t * a, t * b, t * c, t * e, t * f, t * g⟩ = t ^ 2 * Tau.gammaFvf M mv mf ⟨a, b, c, e, f, g⟩ := by
  by_cases ht : t = 0
  · subst ht
    simp [Tau.gammaFvf, Tau.gamma, Tau.amp2, Tau.Vcpl.anyV, Tau.Vcpl.anyT]
  have ht' : (t : ℂ) ≠ 0 := ofReal_ne_zero.2 ht
  have s1 : ∀ z w : ℂ, ‖(t : ℂ) * z - (t : ℂ) * w‖ ^ 2 = t ^ 2 * ‖z - w‖ ^ 2 := fun z w => by rw [← mul_sub, nsq_t]
  have s2 : ∀ z w : ℂ, ‖(t : ℂ) * z + (t : ℂ) * w‖ ^ 2 = t ^ 2 * ‖z + w‖ ^ 2 := fun z w => by rw [← mul_add, nsq_t]
  have v : ∀ (M mv mf : ℝ), Tau.ampV M mv mf ⟨t * a, t * b, t * c, t * e, t * f, t * g⟩ = t ^ 2 * Tau.ampV M mv mf ⟨a, b, c, e, f, g⟩ := by
    intro M mv mf; simp only [Tau.ampV, nsq_t, re_t]; ring
  have v0 : ∀ (M mf : ℝ), Tau.ampV0 M mf ⟨t * a, t * b, t * c, t * e, t * f, t * g⟩ = t ^ 2 * Tau.ampV0 M mf ⟨a, b, c, e, f, g⟩ := by
    intro M mf; simp only [Tau.ampV0, nsq_t, re_t]; ring
  have x : ∀ (M mv mf : ℝ), Tau.ampT M mv mf ⟨t * a, t * b, t * c, t * e, t * f, t * g⟩ = t ^ 2 * Tau.ampT M mv mf ⟨a, b, c, e, f, g⟩ := by
    intro M mv mf; simp only [Tau.ampT, ← mul_sub, ← mul_add, nsq_t, re_t]; ring
  have x0 : ∀ (M mf : ℝ), Tau.ampT0 M mf ⟨t * a, t * b, t * c, t * e, t * f, t * g⟩ = t ^ 2 * Tau.ampT0 M mf ⟨a, b, c, e, f, g⟩ := by
    intro M mf; simp only [Tau.ampT0, nsq_t, re_t]; ring
  have ee : ∀ z w y u : ℂ, ((t : ℂ) * z * conj ((t : ℂ) * w) + (t : ℂ) * y * conj ((t : ℂ) * u)).re = t ^ 2 * (z * conj w + y * conj u).re := by
    intro z w y u; rw [add_re, re_t, re_t, add_re]; ring
  have i : ∀ (M mv mf : ℝ), Tau.ampI M mv mf ⟨t * a, t * b, t * c, t * e, t * f, t * g⟩ = t ^ 2 * Tau.ampI M mv mf ⟨a, b, c, e, f, g⟩ := by
    intro M mv mf; simp only [Tau.ampI, ← mul_sub, ← mul_add, ee]; ring
  have i0 : ∀ (M mf : ℝ), Tau.ampI0 M mf ⟨t * a, t * b, t * c, t * e, t * f, t * g⟩ = t ^ 2 * Tau.ampI0 M mf ⟨a, b, c, e, f, g⟩ := by
    intro M mf; simp only [Tau.ampI0, ← mul_sub, ← mul_add, ee]; ring
  have aV : (⟨t * a, t * b, t * c, t * e, t * f, t * g⟩ : Tau.Vcpl).anyV ↔ (⟨a, b, c, e, f, g⟩ : Tau.Vcpl).anyV := by
    simp only [Tau.Vcpl.anyV, ne_eq, mul_eq_zero, ht', false_or]
  have aT : (⟨t * a, t * b, t * c, t * e, t * f, t * g⟩ : Tau.Vcpl).anyT ↔ (⟨a, b, c, e, f, g⟩ : Tau.Vcpl).anyT := by
    simp only [Tau.Vcpl.anyT, ne_eq, mul_eq_zero, ht', false_or]
  have A : Tau.amp2 M mv mf ⟨t * a, t * b, t * c, t * e, t * f, t * g⟩ = t ^ 2 * Tau.amp2 M mv mf ⟨a, b, c, e, f, g⟩ := by
    unfold Tau.amp2
    rw [v, v0, x, x0, i, i0]
    classical
    exact gate aV aT (t ^ 2) _ _ _ _ _ _
  unfold Tau.gammaFvf Tau.gamma
  rw [A]; ring

/-- Coefficients of one flavour multiplied by a number. (Specification.) -/
def fscaled (t : ℝ) (u : Tau.Fcpl) : Tau.Fcpl :=
  ⟨t * u.LL, t * u.RR, t * u.LR, t * u.RL, t * u.sRR, t * u.sRL, t * u.sLL, t * u.sLR⟩

/-- **C171 (`l → l' γ`, `τ → l π⁰`, `τ → l K⁰`, `τ → l V`).** -/
theorem C171_two_body (tau m1 m2 mP mq1 mq2 fP GF alpha fV fTV KV t : ℝ) (xit : ℂ) (u d : Tau.Fcpl) (g : Fin 6 → ℂ)
    (c c' c9 c9p c10 c10p cs csp cp cpp : ℂ) :
    Tau.brLlgamma tau m1 m2 (t * c) (t * c') = t ^ 2 * Tau.brLlgamma tau m1 m2 c c' ∧
    Tau.brTauPi0 tau m1 mP m2 fP mq1 mq2 (fscaled t u) (fscaled t d) = t ^ 2 * Tau.brTauPi0 tau m1 mP m2 fP mq1 mq2 u d ∧
    Tau.brTauK0 tau m1 mP m2 fP mq1 mq2 GF alpha xit ⟨t * c9, t * c9p, t * c10, t * c10p, t * cs, t * csp, t * cp, t * cpp⟩
      = t ^ 2 * Tau.brTauK0 tau m1 mP m2 fP mq1 mq2 GF alpha xit ⟨c9, c9p, c10, c10p, cs, csp, cp, cpp⟩ ∧
    Tau.brTauV tau m1 mP m2 fV fTV KV (fun i => t * g i) (t * c) (t * c') = t ^ 2 * Tau.brTauV tau m1 mP m2 fV fTV KV g c c' := by
  have F : ∀ {M ms mf : ℝ} {a b A B : ℂ}, a = t * A → b = t * B → tau * Tau.gammaFsf M ms mf a b = t ^ 2 * (tau * Tau.gammaFsf M ms mf A B) := by
    rintro M ms mf a b A B rfl rfl; rw [fsf]; ring
  have G : ∀ {M mv mf : ℝ} {a b c e f g A B C E F G : ℂ}, a = t * A → b = t * B → c = t * C → e = t * E → f = t * F → g = t * G →
      tau * Tau.gammaFvf M mv mf ⟨a, b, c, e, f, g⟩ = t ^ 2 * (tau * Tau.gammaFvf M mv mf ⟨A, B, C, E, F, G⟩) := by
    rintro M mv mf a b c e f g A B C E F G rfl rfl rfl rfl rfl rfl; rw [fvf]; ring
  refine ⟨?_, ?_, ?_, ?_⟩
  · unfold Tau.brLlgamma
    apply G <;> first | ring1 | (simp only [map_mul, conj_ofReal, mul_zero]; ring1)
  · simp only [Tau.brTauPi0, fscaled]
    apply F <;> ring1
  · simp only [Tau.brTauK0]
    apply F <;> ring1
  · simp only [Tau.brTauV]
    apply G <;> first | ring1 | (simp only [map_mul, conj_ofReal, mul_zero]; ring1)

/-- **C171 (`μ → e` conversion).** -/
theorem C171_conversion (d : Edm.Inp) (nucl : String) (t : ℝ) :
    MuE.crMue { d with wc := scaled t d.wc } nucl = times (t ^ 2) (MuE.crMue d nucl) := by
  simp only [MuE.crMue]
  refine bind_times _ _ _ _ fun pc => ?_
  show Except.ok _ = Except.ok _
  congr 1
  simp only [scaled, map_mul, map_add, map_div₀, conj_ofReal]
  have key : ∀ (a b L R : ℂ) (x y : ℝ), a = (t : ℂ) * L → b = (t : ℂ) * R →
      x * (‖a‖ ^ 2 + ‖b‖ ^ 2) / y = t ^ 2 * (x * (‖L‖ ^ 2 + ‖R‖ ^ 2) / y) := by
    rintro a b L R x y rfl rfl; rw [nsq_t, nsq_t]; ring
  apply key <;> ring1

/-! ## Quarkonia and the Z boson -/

theorem conjIf_t (b : Prop) [Decidable b] (t : ℝ) (z : ℂ) : Quarkonium.conjIf b ((t : ℂ) * z) = (t : ℂ) * Quarkonium.conjIf b z := by
  unfold Quarkonium.conjIf; split_ifs
  · rw [map_mul, conj_ofReal]
  · rfl

theorem ampSq_t (a : Quarkonium.VT) (y1 y2 t : ℝ) :
    Quarkonium.ampSq ⟨t * a.VL, t * a.VR, t * a.TL, t * a.TR⟩ y1 y2 = t ^ 2 * Quarkonium.ampSq a y1 y2 := by
  simp only [Quarkonium.ampSq, nsq_t, re_t, add_re]; ring

theorem vll (d : Quarkonium.Inp) (V : String) (Q : ℝ) (l1 l2 : String) (h : l1 ≠ l2) (t : ℝ) :
    Quarkonium.vllBr { d with wc := fun s => scaled t (d.wc s) } V Q l1 l2 = times (t ^ 2) (Quarkonium.vllBr d V Q l1 l2) := by
  simp only [Quarkonium.vllBr, if_neg h, Quarkonium.getVTlfv, bind_assoc]
  refine bind_times _ _ _ _ fun y1 => bind_times _ _ _ _ fun y2 => bind_times _ _ _ _ fun sec => bind_times _ _ _ _ fun qq => ?_
  show Except.ok _ = Except.ok _
  congr 1
  rw [mul_left_comm, ← ampSq_t]
  congr 2
  simp only [← conjIf_t, scaled, Quarkonium.VT.mk.injEq]
  refine ⟨?_, ?_, ?_, ?_⟩
  · congr 1; ring
  · congr 1; ring
  · simp only [map_sub, map_mul, conj_ofReal]; ring
  · ring

/-- **C171 (vector quarkonia).** -/
theorem C171_quarkonium (d : Quarkonium.Inp) (V : String) (Q : ℝ) (l1 l2 : String) (h : l1 ≠ l2) (t : ℝ) :
    Quarkonium.vllBr { d with wc := fun s => scaled t (d.wc s) } V Q l1 l2 = times (t ^ 2) (Quarkonium.vllBr d V Q l1 l2) ∧
    Quarkonium.vllBrComb { d with wc := fun s => scaled t (d.wc s) } V Q l1 l2 = times (t ^ 2) (Quarkonium.vllBrComb d V Q l1 l2) :=
  ⟨vll d V Q l1 l2 h t, bind_two (vll d V Q l1 l2 h t) (vll d V Q l2 l1 (Ne.symm h) t)⟩

theorem sll (d : Quarkonium.InpS) (P l1 l2 : String) (cij cji : ℂ) (t : ℝ) :
    Quarkonium.pllBr { d with wc := fun s => scaled t (d.wc s) } P l1 l2 (t * cij) (t * cji) = times (t ^ 2) (Quarkonium.pllBr d P l1 l2 cij cji) ∧
    Quarkonium.sllBr { d with wc := fun s => scaled t (d.wc s) } P l1 l2 (t * cij) (t * cji) = times (t ^ 2) (Quarkonium.sllBr d P l1 l2 cij cji) := by
  constructor
  · simp only [Quarkonium.pllBr, Quarkonium.sllRate, Quarkonium.getSP, bind_assoc]
    refine bind_times _ _ _ _ fun y1 => bind_times _ _ _ _ fun y2 => bind_times _ _ _ _ fun sec => bind_times _ _ _ _ fun qq =>
      bind_times _ _ _ _ fun g => bind_times _ _ _ _ fun k => ?_
    show Except.ok _ = Except.ok _
    congr 1
    have key : ∀ (a b L R : ℂ) (x y z : ℝ), a = (t : ℂ) * L → b = (t : ℂ) * R →
        x * (y * (‖a‖ ^ 2 + ‖b‖ ^ 2) - z * (a * conj b).re) = t ^ 2 * (x * (y * (‖L‖ ^ 2 + ‖R‖ ^ 2) - z * (L * conj R).re)) := by
      rintro a b L R x y z rfl rfl; rw [nsq_t, nsq_t, re_t]; ring
    apply key
    · simp only [scaled, map_sub, map_add, map_mul, conj_ofReal]; ring
    · simp only [scaled]; ring
  · simp only [Quarkonium.sllBr, Quarkonium.sllRate, Quarkonium.getSS, bind_assoc]
    refine bind_times _ _ _ _ fun y1 => bind_times _ _ _ _ fun y2 => bind_times _ _ _ _ fun sec => bind_times _ _ _ _ fun qq =>
      bind_times _ _ _ _ fun g => ?_
    show Except.ok _ = Except.ok _
    congr 1
    have key : ∀ (a b L R : ℂ) (x y z : ℝ), a = (t : ℂ) * L → b = (t : ℂ) * R →
        x * (y * (‖a‖ ^ 2 + ‖b‖ ^ 2) - z * (a * conj b).re) = t ^ 2 * (x * (y * (‖L‖ ^ 2 + ‖R‖ ^ 2) - z * (L * conj R).re)) := by
      rintro a b L R x y z rfl rfl; rw [nsq_t, nsq_t, re_t]; ring
    apply key
    · simp only [scaled, map_sub, map_add, map_mul, conj_ofReal]; ring
    · simp only [scaled]; ring

/-- **C171 (spin-zero quarkonia).** `cij` and `cji` are the coefficients of the gluonic operators. -/
theorem C171_quarkonium_spin0 (d : Quarkonium.InpS) (P l1 l2 : String) (cij cji : ℂ) (t : ℝ) :
    Quarkonium.pllBrComb { d with wc := fun s => scaled t (d.wc s) } P l1 l2 (t * cij) (t * cji)
      = times (t ^ 2) (Quarkonium.pllBrComb d P l1 l2 cij cji) ∧
    Quarkonium.sllBrComb { d with wc := fun s => scaled t (d.wc s) } P l1 l2 (t * cij) (t * cji)
      = times (t ^ 2) (Quarkonium.sllBrComb d P l1 l2 cij cji) :=
  ⟨bind_two (sll d P l1 l2 cij cji t).1 (sll d P l2 l1 cij cji t).1, bind_two (sll d P l1 l2 cij cji t).2 (sll d P l2 l1 cij cji t).2⟩

/-- Coefficients of the photonic and gluonic operators multiplied by a number. (Specification.) -/
def cscaled (t : ℝ) (c : Quarkonium.CeFF) : Quarkonium.CeFF := ⟨t * c.ij, t * c.ji, t * c.tij, t * c.tji⟩

/-- Couplings multiplied by a number. (Specification.) -/
def gscaled (t : ℝ) (g : Quarkonium.GWC) : Quarkonium.GWC where
  SR := t * g.SR
  SL := t * g.SL
  PR := t * g.PR
  PL := t * g.PL
  AR := t * g.AR
  AL := t * g.AL
  StR := t * g.StR
  StL := t * g.StL
  PtR := t * g.PtR
  PtL := t * g.PtL

theorem bracket_t (g : Quarkonium.GWC) (y a b t : ℝ) :
    Quarkonium.bracket (gscaled t g) y (t ^ 2 * a) (t ^ 2 * b) = t ^ 2 * Quarkonium.bracket g y a b := by
  simp only [Quarkonium.bracket, gscaled, nsq_t, add_re, add_im, re_t, im_t]; ring

theorem interf_t (m1 m2 mV t : ℝ) (g : Quarkonium.GWC) (f f' : ℝ × ℝ × ℝ → Except PyErr ℝ)
    (h : ∀ y a b, f (y, t ^ 2 * a, t ^ 2 * b) = times (t ^ 2) (f' (y, a, b))) :
    (Quarkonium.interf m1 m2 mV (gscaled t g) >>= f) = times (t ^ 2) (Quarkonium.interf m1 m2 mV g >>= f') := by
  unfold Quarkonium.interf
  simp only
  split_ifs
  · simp only [bind_assoc]
    refine bind_times _ _ _ _ fun y => ?_
    refine Eq.trans ?_ (h _ _ _)
    show f (_, _, _) = _
    simp only [gscaled, add_re, add_im, re_t, im_t]
    congr 3 <;> ring
  · simp only [bind_assoc]
    refine bind_times _ _ _ _ fun y => ?_
    refine Eq.trans ?_ (h _ _ _)
    show f (_, _, _) = _
    simp only [gscaled, add_re, add_im, re_t, im_t]
    congr 3 <;> ring
  · rfl

theorem vllg (d : Quarkonium.Inp) (V : String) (Q : ℝ) (l1 l2 : String) (c : Quarkonium.CeFF) (t : ℝ) :
    Quarkonium.vllgBr { d with wc := fun s => scaled t (d.wc s) } V Q l1 l2 (cscaled t c) = times (t ^ 2) (Quarkonium.vllgBr d V Q l1 l2 c) := by
  have key : ∀ (F F' : Quarkonium.GWC → Except PyErr ℝ), (∀ g, F (gscaled t g) = times (t ^ 2) (F' g)) →
      (Quarkonium.getWClfv { d with wc := fun s => scaled t (d.wc s) } V l1 l2 (cscaled t c) >>= F)
        = times (t ^ 2) (Quarkonium.getWClfv d V l1 l2 c >>= F') := by
    intro F F' h
    simp only [Quarkonium.getWClfv, bind_assoc]
    refine bind_times _ _ _ _ fun sec => bind_times _ _ _ _ fun qq => ?_
    refine Eq.trans ?_ (h _)
    show F _ = F _
    congr 1
    simp only [gscaled, scaled, cscaled, ← conjIf_t, Quarkonium.GWC.mk.injEq]
    refine ⟨?_, ?_, ?_, ?_, ?_, ?_, ?_, ?_, ?_, ?_⟩
    all_goals first
      | ring1
      | (congr 1; ring1)
      | (simp only [map_sub, map_add, map_mul, conj_ofReal]; ring1)
  simp only [Quarkonium.vllgBr]
  refine key _ _ fun g => interf_t _ _ _ _ _ _ _ fun y a b => ?_
  show Except.ok _ = Except.ok _
  congr 1
  rw [bracket_t]; ring

/-- **C171 (radiative decays of vector quarkonia).** -/
theorem C171_quarkonium_gamma (d : Quarkonium.Inp) (V : String) (Q : ℝ) (l1 l2 : String) (c : Quarkonium.CeFF) (t : ℝ) :
    Quarkonium.vllgBr { d with wc := fun s => scaled t (d.wc s) } V Q l1 l2 (cscaled t c) = times (t ^ 2) (Quarkonium.vllgBr d V Q l1 l2 c) ∧
    Quarkonium.vllgBrComb { d with wc := fun s => scaled t (d.wc s) } V Q l1 l2 (cscaled t c)
      = times (t ^ 2) (Quarkonium.vllgBrComb d V Q l1 l2 c) :=
  ⟨vllg d V Q l1 l2 c t, bind_two (vllg d V Q l1 l2 c t) (vllg d V Q l2 l1 c t)⟩

/-- **C171 (`Z → f f'`).** The width into two different fermions is quadratic in the coefficients, and vanishes with those that
connect the two generations, whatever the other ones are. -/
theorem C171_Z (p : Zpole.Par) (C : Zpole.WC) (f1 f2 : Zpole.Fm) (h : f1 ≠ f2) (t : ℝ) :
    Zpole.gammaZ p (fun n => (t : ℂ) * C n) f1 f2 = t ^ 2 * Zpole.gammaZ p C f1 f2 ∧
    Zpole.brAv p (fun n => (t : ℂ) * C n) f1 f2 = t ^ 2 * Zpole.brAv p C f1 f2 ∧
    ((∀ op, C (Zpole.key op (min f1.gen f2.gen) (max f1.gen f2.gen)) = 0) → Zpole.gammaZ p C f1 f2 = 0 ∧ Zpole.brAv p C f1 f2 = 0) := by
  have hV : ∀ (f1 f2 : Zpole.Fm), f1 ≠ f2 → Zpole.dgV f1 f2 p (fun n => (t : ℂ) * C n) = t * Zpole.dgV f1 f2 p C := by
    intro f1 f2 h
    unfold Zpole.dgV
    cases f1.sec <;>
    · simp only [Zpole.dgVl, Zpole.dgVnu, Zpole.dgVu, Zpole.dgVd, Zpole.shift, if_neg h]
      split_ifs <;> (try simp only [map_div₀, map_neg, map_add, map_sub, map_mul, conj_ofReal]) <;> ring
  have hA : ∀ (f1 f2 : Zpole.Fm), f1 ≠ f2 → Zpole.dgA f1 f2 p (fun n => (t : ℂ) * C n) = t * Zpole.dgA f1 f2 p C := by
    intro f1 f2 h
    unfold Zpole.dgA
    cases f1.sec <;>
    · simp only [Zpole.dgAl, Zpole.dgAnu, Zpole.dgVnu, Zpole.dgAu, Zpole.dgAd, Zpole.shift, if_neg h]
      split_ifs <;> (try simp only [map_div₀, map_neg, map_add, map_sub, map_mul, conj_ofReal]) <;> ring
  have hG : ∀ (f1 f2 : Zpole.Fm), f1 ≠ f2 → Zpole.gammaZ p (fun n => (t : ℂ) * C n) f1 f2 = t ^ 2 * Zpole.gammaZ p C f1 f2 := by
    intro f1 f2 h
    simp only [Zpole.gammaZ, if_neg h, Zpole.gammaNP, hV _ _ h, hA _ _ h, nsq_t, ofReal_zero, zero_mul, zero_re]; ring
  have hs : ∀ i j : ℕ, Zpole.sort2 i j = (min i j, max i j) := by
    intro i j; unfold Zpole.sort2; split_ifs with hh
    · rw [min_eq_right hh.le, max_eq_left hh.le]
    · rw [min_eq_left (not_lt.1 hh), max_eq_right (not_lt.1 hh)]
  have hz : ∀ (f1 f2 : Zpole.Fm), f1 ≠ f2 → (∀ op, C (Zpole.key op (min f1.gen f2.gen) (max f1.gen f2.gen)) = 0) → Zpole.gammaZ p C f1 f2 = 0 := by
    intro f1 f2 h h0
    have a : Zpole.dgV f1 f2 p C = 0 := by
      unfold Zpole.dgV
      cases f1.sec <;> simp [Zpole.dgVl, Zpole.dgVnu, Zpole.dgVu, Zpole.dgVd, Zpole.shift, if_neg h, hs, h0]
    have b : Zpole.dgA f1 f2 p C = 0 := by
      unfold Zpole.dgA
      cases f1.sec <;> simp [Zpole.dgAl, Zpole.dgAnu, Zpole.dgVnu, Zpole.dgAu, Zpole.dgAd, Zpole.shift, if_neg h, hs, h0]
    simp [Zpole.gammaZ, if_neg h, Zpole.gammaNP, a, b]
  refine ⟨hG _ _ h, ?_, fun h0 => ⟨hz _ _ h h0, ?_⟩⟩
  · simp only [Zpole.brAv, hG _ _ h, hG _ _ (Ne.symm h)]; ring
  · unfold Zpole.brAv
    rw [hz _ _ h h0, hz _ _ (Ne.symm h) (by intro op; rw [min_comm, max_comm]; exact h0 op)]; ring

/-- All coefficients equal to one. (Sample.) (Specification.) -/
noncomputable def sample : Tau3l.Inp := ⟨fun _ => 1, 1, 1, 1, fun _ => .ok fun _ => 1⟩

/-- A non-trivial case: a rate that is not zero, and four times it with doubled couplings. -/
theorem C171_sample :
    Tau3l.br sample "e" "mu" "e" = .ok (1 / 192 / 8 / Real.pi ^ 3 * (25 / 4)) ∧
    Tau3l.br (inpScaled 2 sample) "e" "mu" "e" = .ok (4 * (1 / 192 / 8 / Real.pi ^ 3 * (25 / 4))) := by
  have h : Tau3l.br sample "e" "mu" "e" = .ok (1 / 192 / 8 / Real.pi ^ 3 * (25 / 4)) := by
    have hs : Tau3l.sectorOf "tau" "e" "mu" "e" = .ok "etauemu" := rfl
    have hc : Tau3l.cases (fun _ => 1) (Real.sqrt (4 * Real.pi * sample.alpha) / sample.m "tau") "tau" "e" "mu" "e" = .ok (Tau3l.emue fun _ => 1) := by
      simp [Tau3l.cases]
    have hr : ∀ w, Tau3l.rateOf sample "e" "mu" "e" w = .ok (Tau3l.brTaumuemu w) := fun w => by simp [Tau3l.rateOf]
    unfold Tau3l.br Tau3l.wcEff
    rw [hs]
    show ((Tau3l.cases (fun _ => 1) (Real.sqrt (4 * Real.pi * sample.alpha) / sample.m "tau") "tau" "e" "mu" "e") >>= _) = _
    rw [hc]
    change (Tau3l.rateOf sample "e" "mu" "e" (Tau3l.emue fun _ => 1) >>= fun r => (Except.ok (sample.tauTau * sample.m "tau" ^ 5 / 192 / 8 / Real.pi ^ 3 * r) : Except PyErr ℝ)) = _
    rw [hr]
    show Except.ok _ = Except.ok _
    congr 1
    simp only [Tau3l.brTaumuemu, Tau3l.emue, sample, map_one, norm_one]
    norm_num
  refine ⟨h, ?_⟩
  rw [(C171_three_leptons sample "e" "mu" "e" 2).1, h]
  show Except.ok _ = Except.ok _
  congr 1; norm_num

end Verif.LfvZero
