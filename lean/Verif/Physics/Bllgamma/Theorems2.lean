import Verif.Physics.Bllgamma.Theorems
import Verif.Physics.Bdecays.Bll
/-!
# `B → ℓ⁺ ℓ⁻ γ`: phase space, soft photons, units and bins (C135)
-/
set_option linter.unusedVariables false
set_option linter.unusedSimpArgs false
namespace Verif.Bllgamma
open Verif.Py Verif.Running Complex Filter Topology MeasureTheory
local notation "conj" => starRingEnd ℂ

/-- Masses, decay constants and form-factor parameters in the physical region. (Specification.) -/
structure Phys (q : Inp) (B lep : String) : Prop where
  mB : 0 < q.par ("m_" ++ B)
  ml : 0 < q.par ("m_" ++ lep)
  thr : 2 * q.par ("m_" ++ lep) < q.par ("m_" ++ B)
  dv : 0 < q.par "B->gamma KM deltav"
  da : 0 < q.par "B->gamma KM deltaa"
  dtv : 0 < q.par "B->gamma KM deltatv"
  dta : 0 < q.par "B->gamma KM deltata"
  res : ∀ V ∈ resonances B, q.par ("m_" ++ V) ≠ 0 ∧ q.par ("tau_" ++ V) ≠ 0

/-- The pole form factors as numbers. (Specification.) -/
noncomputable def kmVal (q : Inp) (B : String) (q2 : ℝ) : FF :=
  let f := fun b d : String => q.par b * q.par ("f_" ++ B) * q.par ("m_" ++ B) / (q.par d + q.par ("m_" ++ B) / 2 * (1 - q2 / q.par ("m_" ++ B) ^ 2))
  ⟨f "B->gamma KM betav" "B->gamma KM deltav", f "B->gamma KM betaa" "B->gamma KM deltaa", f "B->gamma KM betatv" "B->gamma KM deltatv", f "B->gamma KM betata" "B->gamma KM deltata"⟩

theorem den_pos {d M q2 : ℝ} (hd : 0 < d) (hM : 0 < M) (h : q2 ≤ M ^ 2) : 0 < d + M / 2 * (1 - q2 / M ^ 2) := by
  have : q2 / M ^ 2 ≤ 1 := (div_le_one (by positivity)).2 h
  have : 0 ≤ M / 2 * (1 - q2 / M ^ 2) := mul_nonneg (by positivity) (by linarith)
  linarith

theorem kmFF_ok {q : Inp} {B lep : String} (h : Phys q B lep) {q2 : ℝ} (hq : q2 ≤ q.par ("m_" ++ B) ^ 2) : kmFF q B q2 = .ok (kmVal q B q2) := by
  have e : ∀ {b x : ℝ}, b ≠ 0 → pyDiv x b = .ok (x / b) := by intro b x hb; unfold pyDiv; rw [if_neg hb]
  unfold kmFF pole
  simp only [e (den_pos h.dv h.mB hq).ne', e (den_pos h.da h.mB hq).ne', e (den_pos h.dtv h.mB hq).ne', e (den_pos h.dta h.mB hq).ne', Bind.bind, Except.bind, pure, Except.pure]
  rfl

/-- **C135 (phase space)** For physical parameters there is a value at every `q²` below the kinematic limit, zero up to the threshold `4 m_ℓ²`. -/
theorem C135_region {q : Inp} {B lep : String} (h : Phys q B lep) (wc : Wc) (q2 : ℝ) (hq : q2 < q.par ("m_" ++ B) ^ 2) :
    (q2 ≤ 4 * q.par ("m_" ++ lep) ^ 2 → dbr q B lep wc q2 = .ok (some 0)) ∧
    (4 * q.par ("m_" ++ lep) ^ 2 < q2 → dbr q B lep wc q2 = .ok (some (q.par ("tau_" ++ B) * dGds q B lep wc (kmVal q B q2) (kmVal q B 0) (q2 / q.par ("m_" ++ B) ^ 2)))) := by
  constructor <;> intro h1 <;> unfold dbr <;> rw [kmFF_ok h hq.le, kmFF_ok h (by have := h.mB; positivity)] <;> simp only [Bind.bind, Except.bind, pure, Except.pure]
  · rw [if_pos (Or.inl h1)]
  · rw [if_neg (by push Not; exact ⟨h1, hq.le⟩), if_neg hq.ne]

/-- Above the limit the value is zero as well, unless a pole of a form factor is hit. -/
theorem C135_above (q : Inp) (B lep : String) (wc : Wc) (q2 : ℝ) (hq : q.par ("m_" ++ B) ^ 2 < q2) (f f0 : FF) (h1 : kmFF q B q2 = .ok f) (h2 : kmFF q B 0 = .ok f0) :
    dbr q B lep wc q2 = .ok (some 0) := by
  unfold dbr; rw [h1, h2]; simp only [Bind.bind, Except.bind, pure, Except.pure]; rw [if_pos (Or.inr hq)]

/-- **C135 (witness)** At the kinematic limit itself there is no finite value, and directly above it the form factors may be divided by zero although the rate vanishes. -/
theorem C135_limit_witness {q : Inp} {B lep : String} (h : Phys q B lep) (wc : Wc) :
    dbr q B lep wc (q.par ("m_" ++ B) ^ 2) = .ok none ∧
    (∃ q2, q.par ("m_" ++ B) ^ 2 < q2 ∧ dbr q B lep wc q2 = .error .zeroDivisionError) := by
  have hM := h.mB
  constructor
  · unfold dbr; rw [kmFF_ok h le_rfl, kmFF_ok h (by positivity)]
    simp only [Bind.bind, Except.bind, pure, Except.pure]
    rw [if_neg, if_pos trivial]
    push Not; refine ⟨?_, le_rfl⟩; nlinarith [h.thr, h.ml]
  · refine ⟨q.par ("m_" ++ B) ^ 2 + 2 * q.par ("m_" ++ B) * q.par "B->gamma KM deltav", ?_, ?_⟩
    · have := h.dv; have : 0 < 2 * q.par ("m_" ++ B) * q.par "B->gamma KM deltav" := by positivity
      linarith
    · unfold dbr kmFF pole
      have e : q.par "B->gamma KM deltav" + q.par ("m_" ++ B) / 2 * (1 - (q.par ("m_" ++ B) ^ 2 + 2 * q.par ("m_" ++ B) * q.par "B->gamma KM deltav") / q.par ("m_" ++ B) ^ 2) = 0 := by
        field_simp; ring
      simp only [e]
      unfold pyDiv
      rw [if_pos rfl]; rfl

/-! ## Continuity -/

theorem res_cont {q : Inp} {B lep : String} (h : Phys q B lep) : Continuous (resSum q B) := by
  unfold resSum
  have : ∀ L : List String, (∀ V ∈ L, q.par ("m_" ++ V) ≠ 0 ∧ q.par ("tau_" ++ V) ≠ 0) → Continuous fun s => (L.map fun V => resTerm q B V s).sum := by
    intro L
    induction L with
    | nil => intro _; simpa using continuous_const
    | cons V L ih =>
      intro hL
      have h1 := hL V (by simp)
      simp only [List.map_cons, List.sum_cons]
      refine Continuous.add ?_ (ih fun W hW => hL W (by simp [hW]))
      unfold resTerm
      refine Continuous.div (by fun_prop) (by fun_prop) fun s hs => ?_
      have := congrArg Complex.im hs
      rw [Complex.add_im, Complex.ofReal_im, Complex.I_mul_im, Complex.ofReal_re, zero_add, Complex.zero_im] at this
      exact (div_ne_zero h1.1 h1.2) this
  exact this _ h.res

/-- Everything except the emission from the leptons, as a function of `q²`. (Specification.) -/
noncomputable def rest (q : Inp) (B lep : String) (wc : Wc) (q2 : ℝ) : ℝ :=
  let mB := q.par ("m_" ++ B)
  let s := q2 / mB ^ 2
  let f := kmVal q B q2
  let tv := fftv q B s f (kmVal q B 0) wc
  let ta := ffta q B s f (kmVal q B 0) wc
  let mlh := q.par ("m_" ++ lep) / mB
  dG1 (prefactor q B) s (q.mb / mB) mlh f tv ta wc + dG12 (prefactor q B) s (q.mb / mB) mlh (q.par ("f_" ++ B) / mB) f tv wc

theorem dGds_eq (q : Inp) (B lep : String) (wc : Wc) (q2 : ℝ) :
    dGds q B lep wc (kmVal q B q2) (kmVal q B 0) (q2 / q.par ("m_" ++ B) ^ 2)
      = rest q B lep wc q2 + dG2 (prefactor q B) (q2 / q.par ("m_" ++ B) ^ 2) (q.par ("m_" ++ lep) / q.par ("m_" ++ B)) (q.par ("f_" ++ B) / q.par ("m_" ++ B)) wc := by
  unfold dGds rest; ring

theorem beta_cont {q : Inp} {B lep : String} (h : Phys q B lep) :
    ContinuousOn (fun q2 => Real.artanh (Real.sqrt (1 - 4 * (q.par ("m_" ++ lep) / q.par ("m_" ++ B)) ^ 2 / (q2 / q.par ("m_" ++ B) ^ 2)))) (Set.Ioi (4 * q.par ("m_" ++ lep) ^ 2)) := by
  have hM := h.mB; have hm := h.ml
  intro x hx
  have hx' : 4 * (q.par ("m_" ++ lep) / q.par ("m_" ++ B)) ^ 2 < x / q.par ("m_" ++ B) ^ 2 := by
    rw [div_pow, ← mul_div_assoc]; exact div_lt_div_of_pos_right hx (by positivity)
  have hx0 : (0:ℝ) < x := lt_trans (by positivity) hx
  obtain ⟨b0, b1, -⟩ := beta_mem (m := q.par ("m_" ++ lep) / q.par ("m_" ++ B)) (by positivity) hx'
  refine ContinuousAt.continuousWithinAt ?_
  refine ContinuousAt.comp (g := Real.artanh) (artanh_deriv ⟨by linarith, b1⟩).continuousAt ?_
  refine ContinuousAt.sqrt (continuousAt_const.sub (continuousAt_const.div (continuousAt_id.div_const _) ?_))
  positivity

theorem rest_cont {q : Inp} {B lep : String} (h : Phys q B lep) (wc : Wc) : ContinuousOn (rest q B lep wc) (Set.Ioc (4 * q.par ("m_" ++ lep) ^ 2) (q.par ("m_" ++ B) ^ 2)) := by
  have hM := h.mB; have hm := h.ml
  set S := Set.Ioc (4 * q.par ("m_" ++ lep) ^ 2) (q.par ("m_" ++ B) ^ 2) with hS
  have hs0 : ∀ x ∈ S, x / q.par ("m_" ++ B) ^ 2 ≠ 0 := by
    intro x hx; have : (0:ℝ) < x := lt_trans (by positivity) hx.1
    positivity
  have hs : ContinuousOn (fun x : ℝ => x / q.par ("m_" ++ B) ^ 2) S := by fun_prop
  have ff : ∀ (b d : String), 0 < q.par d → ContinuousOn (fun x : ℝ => q.par b * q.par ("f_" ++ B) * q.par ("m_" ++ B) / (q.par d + q.par ("m_" ++ B) / 2 * (1 - x / q.par ("m_" ++ B) ^ 2))) S := by
    intro b d hd
    refine ContinuousOn.div continuousOn_const (by fun_prop) fun x hx => (den_pos hd hM hx.2).ne'
  have hv : ContinuousOn (fun x => (kmVal q B x).v) S := ff _ _ h.dv
  have ha : ContinuousOn (fun x => (kmVal q B x).a) S := ff _ _ h.da
  have htv : ContinuousOn (fun x => (kmVal q B x).tv) S := ff _ _ h.dtv
  have hta : ContinuousOn (fun x => (kmVal q B x).ta) S := ff _ _ h.dta
  have hr : ContinuousOn (fun x => resSum q B (x / q.par ("m_" ++ B) ^ 2)) S := (res_cont h).comp_continuousOn hs
  have o {x : ℝ → ℝ} (hx : ContinuousOn x S) : ContinuousOn (fun t => ((x t : ℝ) : ℂ)) S := Complex.continuous_ofReal.comp_continuousOn hx
  have tv : ContinuousOn (fun x => fftv q B (x / q.par ("m_" ++ B) ^ 2) (kmVal q B x) (kmVal q B 0) wc) S := by
    unfold fftv
    exact (((o htv).add continuousOn_const).add continuousOn_const).sub hr
  have ta : ContinuousOn (fun x => ffta q B (x / q.par ("m_" ++ B) ^ 2) (kmVal q B x) (kmVal q B 0) wc) S := by
    unfold ffta
    exact ((o hta).add continuousOn_const).sub hr
  have n1 : ContinuousOn (fun x => ‖wc.C7 * fftv q B (x / q.par ("m_" ++ B) ^ 2) (kmVal q B x) (kmVal q B 0) wc‖ ^ 2) S := (continuousOn_const.mul tv).norm.pow 2
  have n2 : ContinuousOn (fun x => ‖wc.C7 * ffta q B (x / q.par ("m_" ++ B) ^ 2) (kmVal q B x) (kmVal q B 0) wc‖ ^ 2) S := (continuousOn_const.mul ta).norm.pow 2
  have r1 : ContinuousOn (fun x => (wc.C7 * ffta q B (x / q.par ("m_" ++ B) ^ 2) (kmVal q B x) (kmVal q B 0) wc * conj wc.C9).re) S :=
    Complex.continuous_re.comp_continuousOn ((continuousOn_const.mul ta).mul continuousOn_const)
  have r2 : ContinuousOn (fun x => (conj wc.C10 * fftv q B (x / q.par ("m_" ++ B) ^ 2) (kmVal q B x) (kmVal q B 0) wc * wc.C7).re) S :=
    Complex.continuous_re.comp_continuousOn ((continuousOn_const.mul tv).mul continuousOn_const)
  have hL : ContinuousOn (fun q2 => Real.artanh (Real.sqrt (1 - 4 * (q.par ("m_" ++ lep) / q.par ("m_" ++ B)) ^ 2 / (q2 / q.par ("m_" ++ B) ^ 2)))) S := (beta_cont h).mono fun x (hx : x ∈ S) => hx.1
  have c : ∀ (z : ℝ), ContinuousOn (fun _ : ℝ => z) S := fun z => continuousOn_const
  have hs2 : ∀ x ∈ S, (x / q.par ("m_" ++ B) ^ 2) ^ 2 ≠ 0 := fun x hx => pow_ne_zero 2 (hs0 x hx)
  have hs3 : ∀ x ∈ S, 3 * (x / q.par ("m_" ++ B) ^ 2) ≠ 0 := fun x hx => mul_ne_zero (by norm_num) (hs0 x hx)
  have F1 : ContinuousOn (fun x => getF1 (x / q.par ("m_" ++ B) ^ 2) (q.mb / q.par ("m_" ++ B)) (kmVal q B x) (fftv q B (x / q.par ("m_" ++ B) ^ 2) (kmVal q B x) (kmVal q B 0) wc) (ffta q B (x / q.par ("m_" ++ B) ^ 2) (kmVal q B x) (kmVal q B 0) wc) wc) S :=
    (((c _).mul (hv.pow 2)).add (((c _).div (hs.pow 2) hs2).mul n1)).add ((((c _).div hs hs0).mul hv).mul r1)
  have F2 : ContinuousOn (fun x => getF2 (x / q.par ("m_" ++ B) ^ 2) (q.mb / q.par ("m_" ++ B)) (kmVal q B x) (fftv q B (x / q.par ("m_" ++ B) ^ 2) (kmVal q B x) (kmVal q B 0) wc) (ffta q B (x / q.par ("m_" ++ B) ^ 2) (kmVal q B x) (kmVal q B 0) wc) wc) S :=
    (((c _).mul (ha.pow 2)).add (((c _).div (hs.pow 2) hs2).mul n2)).add ((((c _).div hs hs0).mul ha).mul r1)
  have b10 := ((hs.add (c (4 * (q.par ("m_" ++ lep) / q.par ("m_" ++ B)) ^ 2))).mul (F1.add F2)).sub ((c (8 * (q.par ("m_" ++ lep) / q.par ("m_" ++ B)) ^ 2 * ‖wc.C10‖ ^ 2)).mul ((hv.pow 2).add (ha.pow 2)))
  have b12 := hs.mul (F1.add F2)
  have b120 := (((c (-16 * (q.par ("m_" ++ lep) / q.par ("m_" ++ B)) ^ 2)).mul ((c 1).sub hs)).mul ((hv.mul (c (wc.C9 * conj wc.C10).re)).add (((c (2 * (q.mb / q.par ("m_" ++ B)))).div hs hs0).mul r2)))
  have hx := (c 1).sub hs
  have hb : ContinuousOn (fun x => Real.sqrt (1 - 4 * (q.par ("m_" ++ lep) / q.par ("m_" ++ B)) ^ 2 / (x / q.par ("m_" ++ B) ^ 2))) S := ((c 1).sub ((c _).div hs hs0)).sqrt
  exact ((((c (prefactor q B)).mul (hx.pow 3)).mul hb).mul (b10.add (((hs.sub (c (4 * (q.par ("m_" ++ lep) / q.par ("m_" ++ B)) ^ 2))).div ((c 3).mul hs) hs3).mul b12))).add
    ((((c (4 * prefactor q B * (q.par ("f_" ++ B) / q.par ("m_" ++ B)))).mul hx).mul hL).mul b120)

/-! ## Soft photons -/

/-- Velocity of the leptons in `B → ℓℓ`. (Specification.) -/
noncomputable def vel (q : Inp) (B lep : String) : ℝ := Real.sqrt (1 - 4 * (q.par ("m_" ++ lep) / q.par ("m_" ++ B)) ^ 2)

theorem vel_mem {q : Inp} {B lep : String} (h : Phys q B lep) : 0 < vel q B lep ∧ vel q B lep < 1 := by
  have hM := h.mB; have hm := h.ml
  have := beta_mem (m := q.par ("m_" ++ lep) / q.par ("m_" ++ B)) (s := 1) (by positivity) (by
    rw [div_pow, ← mul_div_assoc, div_lt_one (by positivity)]; nlinarith [h.thr])
  rw [div_one] at this
  exact ⟨this.1, this.2.1⟩

theorem dbrVal_eq {q : Inp} {B lep : String} (h : Phys q B lep) (wc : Wc) {q2 : ℝ} (h1 : 4 * q.par ("m_" ++ lep) ^ 2 < q2) (h2 : q2 < q.par ("m_" ++ B) ^ 2) :
    dbrVal q B lep wc q2 = q.par ("tau_" ++ B) * (rest q B lep wc q2
      + dG2 (prefactor q B) (q2 / q.par ("m_" ++ B) ^ 2) (q.par ("m_" ++ lep) / q.par ("m_" ++ B)) (q.par ("f_" ++ B) / q.par ("m_" ++ B)) wc) := by
  unfold dbrVal
  rw [(C135_region h wc q2 h2).2 h1, dGds_eq]

theorem lep_cont {q : Inp} {B lep : String} (h : Phys q B lep) (wc : Wc) :
    ContinuousOn (fun q2 => (1 - q2 / q.par ("m_" ++ B) ^ 2) * dG2 (prefactor q B) (q2 / q.par ("m_" ++ B) ^ 2) (q.par ("m_" ++ lep) / q.par ("m_" ++ B)) (q.par ("f_" ++ B) / q.par ("m_" ++ B)) wc)
      (Set.Ioo (4 * q.par ("m_" ++ lep) ^ 2) (q.par ("m_" ++ B) ^ 2)) ∧
    Tendsto (fun q2 => (1 - q2 / q.par ("m_" ++ B) ^ 2) * dG2 (prefactor q B) (q2 / q.par ("m_" ++ B) ^ 2) (q.par ("m_" ++ lep) / q.par ("m_" ++ B)) (q.par ("f_" ++ B) / q.par ("m_" ++ B)) wc)
      (𝓝[<] (q.par ("m_" ++ B) ^ 2)) (𝓝 (128 * prefactor q B * (q.par ("f_" ++ B) / q.par ("m_" ++ B) * ‖wc.C10‖ * (q.par ("m_" ++ lep) / q.par ("m_" ++ B))) ^ 2
        * (Real.artanh (vel q B lep) - vel q B lep))) := by
  have hM := h.mB; have hm := h.ml
  set M := q.par ("m_" ++ B) with hMd
  set m := q.par ("m_" ++ lep) with hmd
  set K := 64 * prefactor q B * (q.par ("f_" ++ B) / M * ‖wc.C10‖ * (m / M)) ^ 2 with hK
  have hthr : 4 * m ^ 2 < M ^ 2 := by nlinarith [h.thr]
  let g := fun q2 => K * (Real.artanh (Real.sqrt (1 - 4 * (m / M) ^ 2 / (q2 / M ^ 2))) * (1 + q2 / M ^ 2 - (m / M) ^ 2 * (1 - q2 / M ^ 2) ^ 2) - 2 * (q2 / M ^ 2) * Real.sqrt (1 - 4 * (m / M) ^ 2 / (q2 / M ^ 2)))
  have hg : ContinuousOn g (Set.Ioi (4 * m ^ 2)) := by
    have hL := beta_cont h
    have hs : ContinuousOn (fun x : ℝ => x / M ^ 2) (Set.Ioi (4 * m ^ 2)) := by fun_prop
    have c : ∀ (z : ℝ), ContinuousOn (fun _ : ℝ => z) (Set.Ioi (4 * m ^ 2)) := fun z => continuousOn_const
    have hs0 : ∀ x ∈ Set.Ioi (4 * m ^ 2), x / M ^ 2 ≠ 0 := by
      intro x hx; have : (0:ℝ) < x := lt_trans (by positivity) hx
      positivity
    have hb := ((c 1).sub ((c (4 * (m / M) ^ 2)).div hs hs0)).sqrt
    exact (c K).mul ((hL.mul (((c 1).add hs).sub ((c _).mul (((c 1).sub hs).pow 2)))).sub (((c 2).mul hs).mul hb))
  have eq : ∀ x ∈ Set.Ioo (4 * m ^ 2) (M ^ 2), (1 - x / M ^ 2) * dG2 (prefactor q B) (x / M ^ 2) (m / M) (q.par ("f_" ++ B) / M) wc = g x := by
    intro x hx
    have hx' : 4 * (m / M) ^ 2 < x / M ^ 2 := by
      rw [div_pow, ← mul_div_assoc]; exact div_lt_div_of_pos_right hx.1 (by positivity)
    have h1 : 1 - x / M ^ 2 ≠ 0 := by
      have : x / M ^ 2 < 1 := (div_lt_one (by positivity)).2 hx.2
      linarith
    rw [dG2_eq _ _ _ _ _ (by positivity) hx']
    have hc : ∀ a b c : ℝ, a ≠ 0 → a * (b / a * c) = b * c := by intro a b c ha; field_simp
    exact hc _ _ _ h1
  refine ⟨(hg.mono fun x hx => hx.1).congr eq, ?_⟩
  have lim : Tendsto g (𝓝[<] (M ^ 2)) (𝓝 (g (M ^ 2))) := ((hg.continuousAt (Ioi_mem_nhds hthr)).tendsto).mono_left nhdsWithin_le_nhds
  have gv : g (M ^ 2) = 128 * prefactor q B * (q.par ("f_" ++ B) / M * ‖wc.C10‖ * (m / M)) ^ 2 * (Real.artanh (vel q B lep) - vel q B lep) := by
    simp only [g, hK]
    rw [div_self (by positivity), div_one]
    unfold vel; ring
  rw [gv] at lim
  refine lim.congr' ?_
  filter_upwards [Ioo_mem_nhdsLT hthr] with x hx using (eq x hx).symm

/-- **C135 (soft photons)** Towards the end of the phase space the photon energy goes to zero and the rate grows like one over it, with a finite coefficient: that of the emission from the leptons. -/
theorem C135_soft_limit {q : Inp} {B lep : String} (h : Phys q B lep) (wc : Wc) :
    Tendsto (fun q2 => (1 - q2 / q.par ("m_" ++ B) ^ 2) * dbrVal q B lep wc q2) (𝓝[<] (q.par ("m_" ++ B) ^ 2))
      (𝓝 (q.par ("tau_" ++ B) * (128 * prefactor q B * (q.par ("f_" ++ B) / q.par ("m_" ++ B) * ‖wc.C10‖ * (q.par ("m_" ++ lep) / q.par ("m_" ++ B))) ^ 2
        * (Real.artanh (vel q B lep) - vel q B lep)))) := by
  have hM := h.mB; have hm := h.ml
  have hthr : 4 * q.par ("m_" ++ lep) ^ 2 < q.par ("m_" ++ B) ^ 2 := by nlinarith [h.thr]
  have l2 := (lep_cont h wc).2
  have l1 : Tendsto (fun q2 => (1 - q2 / q.par ("m_" ++ B) ^ 2) * rest q B lep wc q2) (𝓝[<] (q.par ("m_" ++ B) ^ 2)) (𝓝 0) := by
    have hc : ContinuousWithinAt (fun q2 => (1 - q2 / q.par ("m_" ++ B) ^ 2) * rest q B lep wc q2) (Set.Ioc (4 * q.par ("m_" ++ lep) ^ 2) (q.par ("m_" ++ B) ^ 2)) (q.par ("m_" ++ B) ^ 2) :=
      ContinuousWithinAt.mul (by fun_prop) ((rest_cont h wc) _ ⟨hthr, le_rfl⟩)
    have := hc.tendsto
    rw [div_self (by positivity), sub_self, zero_mul] at this
    refine this.mono_left ?_
    rw [nhdsWithin_Ioc_eq_nhdsLE hthr]
    exact nhdsWithin_mono _ Set.Iio_subset_Iic_self
  have := (l1.add l2).const_mul (q.par ("tau_" ++ B))
  rw [zero_add] at this
  refine this.congr' ?_
  filter_upwards [Ioo_mem_nhdsLT hthr] with x hx
  rw [dbrVal_eq h wc hx.1 hx.2]; ring

/-- **C135 (witness: soft photons)** In units of the branching ratio of `B → ℓℓ` computed by the same package from the same coefficient, the coefficient of `1/(1-q²/m_B²)` is `(2α/π)(artanh v - v)/v`;
the soft-photon theorem demands `(2α/π)((1+v²) artanh v - v)/v`, which is larger. -/
theorem C135_soft_witness {q : Inp} {B : Bll.BMes} {l : Bll.Lep} (h : Phys q B.name l.name) (wc : Wc) (Q : Bll.Inputs) (wc' : String → ℂ) (hQ : Bll.Physical Q B l l)
    (hpar : Q.par = q.par) (hal : Q.alphaE = q.alphaE) (f : Ckm.Mat → ℂ) (hf : Ckm.xi 't' B.quarks = .ok f) (hxi : q.xiT = f Q.V)
    (h10 : Bll.minus wc' "C10" (Bll.sector B l l) = wc.C10) (hP : Bll.minus wc' "CP" (Bll.sector B l l) = 0) (hS : Bll.minus wc' "CS" (Bll.sector B l l) = 0)
    (br : ℝ) (hbr : Bll.brInst Q wc' B l l = .ok br) :
    Tendsto (fun q2 => (1 - q2 / q.par ("m_" ++ B.name) ^ 2) * dbrVal q B.name l.name wc q2) (𝓝[<] (q.par ("m_" ++ B.name) ^ 2))
      (𝓝 (br * (2 * q.alphaE / Real.pi) * ((Real.artanh (vel q B.name l.name) - vel q B.name l.name) / vel q B.name l.name)))
    ∧ Real.artanh (vel q B.name l.name) - vel q B.name l.name < (1 + vel q B.name l.name ^ 2) * Real.artanh (vel q B.name l.name) - vel q B.name l.name := by
  obtain ⟨v0, v1⟩ := vel_mem h
  constructor
  · have := C135_soft_limit h wc
    convert this using 2
    obtain ⟨N, P, S, hN, ha, hb, -⟩ := Bll.C88_rate hQ wc'
    rw [hb] at hbr
    have e : br = _ := (Except.ok.inj hbr).symm
    rw [e, hpar]
    have hN' : N = f Q.V * 4 * Q.par "GF" / Real.sqrt 2 * Q.alphaE / (4 * Real.pi) := by
      have := hN; unfold Bll.normN at this; rw [hf] at this; exact (Except.ok.inj this).symm
    have hPS := ha
    rw [Bll.amplitudes_eq hQ wc', h10, hP, hS] at hPS
    obtain ⟨hPe, hSe⟩ := Prod.mk.inj (Except.ok.inj hPS)
    have nN : ‖N‖ ^ 2 = ‖q.xiT‖ ^ 2 * q.par "GF" ^ 2 * q.alphaE ^ 2 / (2 * Real.pi ^ 2) := by
      rw [hN', hpar, hal, ← hxi]
      have s2 : Real.sqrt 2 ^ 2 = 2 := Real.sq_sqrt (by norm_num)
      rw [norm_div, norm_mul, norm_div, norm_mul, norm_mul, norm_mul]
      simp only [Complex.norm_real, Complex.norm_ofNat, Real.norm_eq_abs, div_pow, mul_pow, sq_abs, s2]
      ring
    have nP : ‖P‖ ^ 2 = 4 * (q.par ("m_" ++ l.name) / q.par ("m_" ++ B.name)) ^ 2 * ‖wc.C10‖ ^ 2 := by
      rw [← hPe, hpar]
      simp only [sub_self, mul_zero, add_zero, ne_eq, OfNat.ofNat_ne_zero, not_false_eq_true, zero_pow, zero_div, sub_zero, Real.sqrt_one, Complex.ofReal_one, one_mul, norm_mul, Complex.norm_real, Real.norm_eq_abs, mul_pow, sq_abs]
      ring
    have nS : ‖S‖ ^ 2 = 0 := by rw [← hSe]; simp
    have nb : Real.sqrt (1 - (q.par ("m_" ++ l.name) - q.par ("m_" ++ l.name)) ^ 2 / q.par ("m_" ++ B.name) ^ 2) *
          Real.sqrt (1 - (q.par ("m_" ++ l.name) + q.par ("m_" ++ l.name)) ^ 2 / q.par ("m_" ++ B.name) ^ 2) = vel q B.name l.name := by
      unfold vel
      rw [sub_self, zero_pow (by norm_num), zero_div, sub_zero, Real.sqrt_one, one_mul]
      congr 2; ring
    have hM := h.mB
    rw [nN, nP, nS, nb]
    unfold prefactor
    have hv : vel q B.name l.name ≠ 0 := v0.ne'
    have hp := Real.pi_ne_zero
    generalize vel q B.name l.name = v at *
    field_simp
    ring
  · have := v0.trans (artanh_gt v0 v1)
    nlinarith [mul_pos (pow_pos v0 2) this]

end Verif.Bllgamma
