import Verif.Functions.Theorems
import Verif.Registry.Theorems
import Verif.Parameters.Theorems
import Verif.Parameters.Correlated
import Verif.Measurements.Corr
import Verif.Probability.MultivariateTheorems
/-!
# Theorems added after the fourth round of mutation testing
-/
set_option linter.unusedSectionVars false
set_option linter.unusedSimpArgs false
set_option linter.unusedVariables false
open Verif.Py

namespace Verif.Functions
variable {V : Type}

/-- **C54 (observable without arguments)** In the parallel branch, an observable that has no arguments accepts exactly
the empty list of positional arguments (and keeps the keyword arguments); any positional argument raises `TypeError`. -/
theorem C54_no_arguments (args : List V) (kw : Dict String V) :
    (args = [] → argsToKwargs none args kw = .ok kw) ∧ (args ≠ [] → argsToKwargs none args kw = .error .typeError) := by
  constructor
  · rintro rfl; rfl
  · intro h
    cases args with
    | nil => exact absurd rfl h
    | cons a l => rfl

theorem kwLookup_mapM_error (kw : Dict String V) (l : List String) (h : ∃ n ∈ l, kw.get? n = none) :
    l.mapM (kwLookup kw) = .error .typeError := by
  induction l with
  | nil => obtain ⟨n, hn, _⟩ := h; simp at hn
  | cons a l ih =>
    rw [List.mapM_cons]
    cases ha : kw.get? a with
    | none => simp only [kwLookup, ha]; rfl
    | some v =>
      have : ∃ n ∈ l, kw.get? n = none := by
        obtain ⟨n, hn, h2⟩ := h
        rcases List.mem_cons.1 hn with rfl | hn
        · rw [ha] at h2; cases h2
        · exact ⟨n, hn, h2⟩
      simp only [kwLookup, ha]
      rw [ok_bind_eq, ih this]; rfl

/-- **C54 (missing argument)** A function called without a value for one of its parameters raises `TypeError`. -/
theorem C54_missing_argument (names : List String) (args : List V) (kw : Dict String V)
    (h : ∃ n ∈ names.drop args.length, kw.get? n = none) : bindArgs names args kw = .error .typeError := by
  unfold bindArgs
  split_ifs
  · rfl
  · rfl
  · rw [kwLookup_mapM_error kw _ h]; rfl

example : bindArgs ["q2min", "q2max"] [(1 : Nat)] [] = .error .typeError :=
  C54_missing_argument _ _ _ ⟨"q2max", by simp, rfl⟩

end Verif.Functions

namespace Verif.Registry
variable {C N I : Type} [DecidableEq C] [DecidableEq N]

/-- **C13 (deleting an unknown name)** On a class that has had instances, deleting a name that is not registered raises
`KeyError` and changes nothing. -/
theorem C13_del_unknown (bases : C → List C) (h : List (Op C N I)) (hw : Wellused bases h) (c : C)
    (hc : BasesUntouched bases h c) (n : N) (ht : Touched h c) (hn : ∀ i, ¬ Registered h c n i) :
    delInstance (run bases h) c (bases c) n = (run bases h, some .keyError) := by
  have hg : ((privRun c h).getD []).get? n = none := by
    cases hg : ((privRun c h).getD []).get? n with
    | none => rfl
    | some i => exact absurd ((privRun_get? c h n i).1 hg) (hn i)
  unfold delInstance
  rw [owner_run bases h hw c hc, run_eq_priv bases h hw c]
  rw [← privRun_isSome] at ht
  have hh : ((privRun c h).getD []).has n = false := by
    simp [Dict.has, hg]
  simp only [ht, if_true, run_eq_priv bases h hw c, hh]
  simp

end Verif.Registry

namespace Verif.Parameters
variable {D : Type}

/-- **C100 (non-positive deviations)** A PDG entry is turned into a distribution exactly if both its deviations are
positive; otherwise `ValueError`. -/
theorem C100_deviations (d : Datum) :
    (0 < d.right ∧ 0 < d.left → ∃ x, (distOf d : Except PyErr (PD D)) = .ok x) ∧
    (¬(0 < d.right ∧ 0 < d.left) → (distOf d : Except PyErr (PD D)) = .error .valueError) := by
  unfold distOf
  constructor
  · rintro ⟨h1, h2⟩
    split_ifs with h3 h4 h5
    · exact absurd h4 (not_le.2 h1)
    · exact ⟨_, rfl⟩
    · rcases h5 with h | h
      · exact absurd h (not_le.2 h1)
      · exact absurd h (not_le.2 h2)
    · exact ⟨_, rfl⟩
  · intro h
    split_ifs with h3 h4 h5
    · rfl
    · exact absurd ⟨not_le.1 h4, h3 ▸ not_le.1 h4⟩ h
    · rfl
    · rw [not_or] at h5
      exact absurd ⟨not_le.1 h5.1, not_le.1 h5.2⟩ h

/-- **C100 (unknown parameter in a correlated group)** The group raises `KeyError` for a parameter that is not registered. -/
theorem C100_group_unknown (reg : List String) (e : String × List Char) (l : List (String × List Char)) (h : e.1 ∉ reg) :
    entryOf reg (e :: l) = .error .keyError := by
  unfold entryOf
  simp only [h, if_false]

end Verif.Parameters

namespace Verif.Measurements
variable {K : Type} [Field K] [LinearOrder K] [IsStrictOrderedRing K]

/-- **C27 (nearly symmetric full matrix)** A full matrix whose mirrored entries agree up to `1e-8 + 1e-5 |m_ji|` is returned as
it is, although it is not symmetric; as soon as one pair differs by more, the mirrored off-diagonal entries are *added*. -/
theorem C27_full_asymmetric (n : Nat) (rows : List (List K)) (h : IsFull n rows) :
    ((∀ i j : Fin n, |entry rows i j - entry rows j i| ≤ 1 / 100000000 + 1 / 100000 * |entry rows j i|) →
      ∃ m, fixCorr (.rows rows) n = .ok m ∧ ∀ i j : Fin n, m i j = entry rows i j) ∧
    ((∃ i j : Fin n, 1 / 100000000 + 1 / 100000 * |entry rows j i| < |entry rows i j - entry rows j i|) →
      ∃ m, fixCorr (.rows rows) n = .ok m ∧ ∀ i j : Fin n, i ≠ j → m i j = entry rows i j + entry rows j i) := by
  have hf := fixCorr_rows n rows h.1 (fun _ line j => line.getD j 0)
    (fun i line hl => fixRow_full (h.2 i line hl))
  have e8 : (1 : K) / 10 ^ 8 = 1 / 100000000 := by norm_num
  have e5 : (1 : K) / 10 ^ 5 = 1 / 100000 := by norm_num
  constructor
  · intro hs
    refine ⟨_, hf, fun i j => ?_⟩
    rw [symmetrise_close]
    · rfl
    · intro a b
      have := hs a b
      unfold entry at this
      rw [e8, e5]
      exact this
  · rintro ⟨a, b, hab⟩
    refine ⟨_, hf, fun i j hij => ?_⟩
    rw [symmetrise_not]
    · simp only [hij, if_false, sub_zero]; rfl
    · intro hc
      have := hc a b
      unfold entry at hab
      rw [e8, e5] at this
      exact absurd this (not_le.2 hab)

end Verif.Measurements

namespace Verif.Probability
open Matrix
variable {n : ℕ}

/-- **C42 (nearly symmetric matrix)** The same tolerance for a covariance: kept if all mirrored entries agree up to
`1e-8 + 1e-5 |cov_ji|`, otherwise the mirrored off-diagonal entries are added. -/
theorem C42_asymmetric_covariance (c : Fin n → ℝ) (arr : Bool) (cov : Matrix (Fin n) (Fin n) ℝ)
    (sd : Option (Fin n → ℝ)) (corr : CorrArg n) (d : MVN n) (h : mkMVN c arr (some cov) sd corr = .ok d) :
    ((∀ i j, |cov i j - cov j i| ≤ 1 / 100000000 + 1 / 100000 * |cov j i|) → d.cov = cov) ∧
    ((∃ i j, 1 / 100000000 + 1 / 100000 * |cov j i| < |cov i j - cov j i|) →
      ∀ i j, i ≠ j → d.cov i j = cov i j + cov j i) := by
  have := finish_eq (h : MVN.finish _ = _)
  subst this
  have e8 : (1 : ℝ) / 10 ^ 8 = 1 / 100000000 := by norm_num
  have e5 : (1 : ℝ) / 10 ^ 5 = 1 / 100000 := by norm_num
  constructor
  · intro hs
    show symmetrise cov = cov
    unfold symmetrise
    rw [if_pos]
    intro i j
    rw [e8, e5]; exact hs i j
  · rintro ⟨a, b, hab⟩ i j hij
    show symmetrise cov i j = _
    unfold symmetrise
    rw [if_neg]
    · simp [Matrix.add_apply, Matrix.sub_apply, Matrix.transpose_apply, Matrix.diagonal_apply, hij]
    · intro hc
      have := hc a b
      rw [e8, e5] at this
      exact absurd this (not_le.2 hab)

end Verif.Probability
