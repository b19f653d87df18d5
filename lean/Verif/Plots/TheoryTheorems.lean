import Mathlib.Tactic.Linarith
import Mathlib.Tactic.FieldSimp
import Mathlib.Tactic.NormNum
import Mathlib.Tactic.Positivity
import Verif.Plots.Theory
/-! # Theory plots: theorems (C145) -/
set_option linter.unusedVariables false
set_option linter.unusedSimpArgs false
namespace Verif.Plots
open Verif.Py

/-! ## Specification -/

/-- The `i`-th of `n` equidistant points from `a` to `b` (both included). (Specification.) -/
noncomputable def node (a b : ℝ) (n i : ℕ) : ℝ := a + (i : ℝ) * ((b - a) / ((n : ℝ) - 1))

/-- `n` equidistant points end at `b`. -/
theorem node_last (a b : ℝ) (n : ℕ) (h : 2 ≤ n) : node a b n 0 = a ∧ node a b n (n - 1) = b := by
  have h1 : ((n : ℝ) - 1) ≠ 0 := by
    have : (2 : ℝ) ≤ n := by exact_mod_cast h
    intro h0; linarith
  constructor
  · simp [node]
  · unfold node
    rw [Nat.cast_sub (by omega), Nat.cast_one]
    field_simp
    ring

/-! ## Lemmas -/

theorem mapM_map_ok {α β : Type} (l : List α) (f : α → Except PyErr β) (g : α → β)
    (h : ∀ x ∈ l, f x = .ok (g x)) : l.mapM f = .ok (l.map g) := by
  induction l with
  | nil => rfl
  | cons x l ih =>
    rw [List.mapM_cons, h x (by simp), ih (fun y hy => h y (by simp [hy]))]
    rfl

theorem bindOk {α β : Type} {x : Except PyErr α} {f : α → Except PyErr β} {b : β} (h : x >>= f = .ok b) :
    ∃ a, x = .ok a ∧ f a = .ok b := by
  cases x with
  | error e => simp [Bind.bind, Except.bind] at h
  | ok a => exact ⟨a, rfl, h⟩

theorem stepSize_ok (a b : ℝ) (n : ℕ) (h : 2 ≤ n) :
    stepSize a b n = .ok ((b - a) / ((n : ℝ) - 1)) := by
  unfold stepSize
  have : (2 : ℝ) ≤ n := by exact_mod_cast h
  rw [if_neg]
  · simp
  · simp only [Int.cast_natCast]
    intro h0; linarith

theorem arange_open (a b : ℝ) (n : ℕ) (h : 2 ≤ n) (hab : a ≠ b) :
    arange a b ((b - a) / ((n : ℝ) - 1)) = .ok ((List.range (n - 1)).map (node a b n)) := by
  have h2 : (2 : ℝ) ≤ n := by exact_mod_cast h
  have h1 : ((n : ℝ) - 1) ≠ 0 := by intro h0; linarith
  have hb : b - a ≠ 0 := sub_ne_zero.2 (Ne.symm hab)
  unfold arange
  rw [if_neg (div_ne_zero hb h1)]
  have e : (b - a) / ((b - a) / ((n : ℝ) - 1)) = ((n - 1 : ℕ) : ℝ) := by
    rw [Nat.cast_sub (by omega), Nat.cast_one]
    field_simp
  rw [e, Nat.ceil_natCast]
  rfl

theorem arange_closed (a b : ℝ) (n : ℕ) (h : 2 ≤ n) (hab : a ≠ b) :
    arange a (b + (b - a) / ((n : ℝ) - 1)) ((b - a) / ((n : ℝ) - 1))
      = .ok ((List.range n).map (node a b n)) := by
  have h2 : (2 : ℝ) ≤ n := by exact_mod_cast h
  have h1 : ((n : ℝ) - 1) ≠ 0 := by intro h0; linarith
  have hb : b - a ≠ 0 := sub_ne_zero.2 (Ne.symm hab)
  unfold arange
  rw [if_neg (div_ne_zero hb h1)]
  have e : (b + (b - a) / ((n : ℝ) - 1) - a) / ((b - a) / ((n : ℝ) - 1)) = (n : ℝ) := by
    field_simp
    ring
  rw [e, Nat.ceil_natCast]
  rfl

theorem node_inj (a b : ℝ) (n : ℕ) (h : 2 ≤ n) (hab : a ≠ b) : Function.Injective (node a b n) := by
  have h2 : (2 : ℝ) ≤ n := by exact_mod_cast h
  have h1 : ((n : ℝ) - 1) ≠ 0 := by intro h0; linarith
  have hb : b - a ≠ 0 := sub_ne_zero.2 (Ne.symm hab)
  intro i j hij
  unfold node at hij
  have := mul_right_cancel₀ (div_ne_zero hb h1) (add_left_cancel hij)
  exact_mod_cast this

theorem node_mem (a b : ℝ) (n i : ℕ) (h : 2 ≤ n) (hab : a < b) (hi : i ≤ n - 1) :
    a ≤ node a b n i ∧ node a b n i ≤ b := by
  have h2 : (2 : ℝ) ≤ n := by exact_mod_cast h
  have hi' : (i : ℝ) ≤ n - 1 := by
    have : (i : ℝ) ≤ ((n - 1 : ℕ) : ℝ) := by exact_mod_cast hi
    rwa [Nat.cast_sub (by omega), Nat.cast_one] at this
  have h0 : (0 : ℝ) < (n : ℝ) - 1 := by linarith
  unfold node
  constructor
  · have : 0 ≤ (i : ℝ) * ((b - a) / ((n : ℝ) - 1)) := by
      have : 0 < b - a := by linarith
      positivity
    linarith
  · have : (i : ℝ) * ((b - a) / ((n : ℝ) - 1)) ≤ ((n : ℝ) - 1) * ((b - a) / ((n : ℝ) - 1)) := by
      apply mul_le_mul_of_nonneg_right hi'
      have : 0 < b - a := by linarith
      positivity
    rw [mul_div_cancel₀ _ h0.ne'] at this
    linarith

theorem zip_map_self {α β : Type} (l : List α) (f : α → β) : l.zip (l.map f) = l.map fun x => (x, f x) := by
  induction l with
  | nil => rfl
  | cons x l ih => simp [ih]

/-! ## `diff_plot_th` -/

/-- **C145 (curve without uncertainties).** For `steps = n ≥ 2` and `x_min ≠ x_max`, the curve consists of the
first `n - 1` of the `n` equidistant points from `x_min` to `x_max`; at each the value is `scale_factor`
times the prediction: of the Standard Model without Wilson coefficients, else the one with these Wilson
coefficients. -/
theorem C145_curve {WC : Type} (P : Preds WC ℝ) (a b sf : ℝ) (wc : Option WC) (n : ℕ) (kwargs : Args)
    (c : ℝ → ℝ) (h : 2 ≤ n) (hab : a ≠ b)
    (hc : ∀ i < n - 1, (match wc with
      | none => P.smPrediction (node a b n i)
      | some w => P.npPrediction w (node a b n i)) = .ok (c (node a b n i))) :
    ∃ args, diffPlotTh P (some 1) a b wc n sf kwargs
      = .ok ((List.range (n - 1)).map (fun i => (node a b n i, sf * c (node a b n i))), args) := by
  refine ⟨if !kwargs.has "c" && !kwargs.has "color" then kwargs.set "c" (.str "k") else kwargs, ?_⟩
  unfold diffPlotTh
  rw [stepSize_ok a b n h]
  simp only [checkArgs, ne_eq, not_true, if_false, Bind.bind, Except.bind]
  rw [arange_open a b n h hab]
  simp only []
  rw [mapM_map_ok _ _ c]
  · simp only []
    rw [List.map_map, zip_map_self, List.map_map]
    rfl
  · intro x hx
    obtain ⟨i, hi, rfl⟩ := List.mem_map.1 hx
    have := hc i (List.mem_range.1 hi)
    cases wc <;> exact this

/-- What the documentation says about the range: the curve is drawn from `x_min` to `x_max`. (Specification.) -/
def CurveReachesEnd : Prop :=
  ∀ (a b : ℝ) (n : ℕ) (c : ℝ → ℝ), 2 ≤ n → a < b →
    ∀ r, diffPlotTh (WC := Unit) ⟨fun x => .ok (c x), fun _ => .ok 0, fun _ x => .ok (c x), fun _ _ => .ok 0⟩
      (some 1) a b none n 1 [] = .ok r → ∃ p ∈ r.1, p.1 = b

/-- **C145 (end of the range, finding).** The curve of `diff_plot_th` never contains the point `x_max`
(`np.arange` excludes the end): one of the `steps` points is missing, and with `steps = 2` the "curve" is a
single point. -/
theorem C145_curve_end_missing :
    ¬ CurveReachesEnd ∧
    (∀ {WC : Type} (P : Preds WC ℝ) (a b sf : ℝ) (wc : Option WC) (n : ℕ) (kwargs : Args) (c : ℝ → ℝ)
      (h : 2 ≤ n) (hab : a ≠ b) (hc : ∀ x, P.central wc x = .ok (c x)) (r),
      diffPlotTh P (some 1) a b wc n sf kwargs = .ok r → r.1.length = n - 1 ∧ ∀ p ∈ r.1, p.1 ≠ b) := by
  have gen : ∀ {WC : Type} (P : Preds WC ℝ) (a b sf : ℝ) (wc : Option WC) (n : ℕ) (kwargs : Args) (c : ℝ → ℝ)
      (h : 2 ≤ n) (hab : a ≠ b) (hc : ∀ x, P.central wc x = .ok (c x)) (r),
      diffPlotTh P (some 1) a b wc n sf kwargs = .ok r → r.1.length = n - 1 ∧ ∀ p ∈ r.1, p.1 ≠ b := by
    intro WC P a b sf wc n kwargs c h hab hc r hr
    obtain ⟨args, he⟩ := C145_curve P a b sf wc n kwargs c h hab (by
      intro i _
      have := hc (node a b n i)
      cases wc <;> exact this)
    rw [he] at hr
    injection hr with hr
    rw [← hr]
    refine ⟨by simp, ?_⟩
    intro p hp
    obtain ⟨i, hi, rfl⟩ := List.mem_map.1 hp
    have hi := List.mem_range.1 hi
    intro h1
    have h2 : node a b n i = node a b n (n - 1) := by rw [(node_last a b n h).2]; exact h1
    have := node_inj a b n h hab h2
    omega
  refine ⟨?_, gen⟩
  intro hfull
  obtain ⟨args, he⟩ := C145_curve (WC := Unit)
    ⟨fun x => .ok x, fun _ => .ok 0, fun _ x => .ok x, fun _ _ => .ok 0⟩ 0 1 1 none 2 [] (fun x => x)
    (le_refl 2) (by norm_num) (by intro i _; rfl)
  obtain ⟨p, hp, hb⟩ := hfull 0 1 2 (fun x => x) (le_refl 2) (by norm_num) _ he
  exact (gen (WC := Unit) ⟨fun x => .ok x, fun _ => .ok 0, fun _ x => .ok x, fun _ _ => .ok 0⟩ 0 1 1 none 2 []
    (fun x => x) (le_refl 2) (by norm_num) (fun x => rfl) _ he).2 p hp hb

/-- **C145 (colour of the curve).** All keyword arguments are handed on; black is the default colour, used
exactly when neither `c` nor `color` is given. -/
theorem C145_curve_args {WC : Type} (P : Preds WC ℝ) (obs : Option ℕ) (a b sf : ℝ) (wc : Option WC) (n : ℤ)
    (kwargs : Args) (r) (h : diffPlotTh P obs a b wc n sf kwargs = .ok r) :
    (∀ k v, kwargs.get? k = some v → r.2.get? k = some v) ∧
    (∀ k, k ≠ "c" → r.2.get? k = kwargs.get? k) ∧
    (kwargs.get? "c" = none → kwargs.get? "color" = none → r.2.get? "c" = some (.str "k")) ∧
    (kwargs.get? "c" = none → kwargs.get? "color" ≠ none → r.2.get? "c" = none) := by
  have hr : r.2 = if !kwargs.has "c" && !kwargs.has "color" then kwargs.set "c" (.str "k") else kwargs := by
    unfold diffPlotTh at h
    cases h1 : checkArgs obs 1 with
    | error e => rw [h1] at h; simp [Bind.bind, Except.bind] at h
    | ok u =>
      cases h2 : stepSize a b n with
      | error e => rw [h1, h2] at h; simp [Bind.bind, Except.bind] at h
      | ok st =>
        cases h3 : arange a b st with
        | error e => rw [h1, h2] at h; simp [Bind.bind, Except.bind, h3] at h
        | ok xs =>
          cases h4 : xs.mapM (P.central wc) with
          | error e => rw [h1, h2] at h; simp [Bind.bind, Except.bind, h3, h4] at h
          | ok ys =>
            rw [h1, h2] at h
            simp only [Bind.bind, Except.bind, h3, h4] at h
            injection h with h
            rw [← h]
  rw [hr]
  cases hcc : kwargs.get? "c" with
  | some v =>
    have : kwargs.has "c" = true := by simp [Dict.has, hcc]
    simp only [this, Bool.not_true, Bool.false_and, Bool.false_eq_true, if_false]
    exact ⟨fun k v h => h, fun k _ => trivial, by simp, by simp⟩
  | none =>
    have hh : kwargs.has "c" = false := by simp [Dict.has, hcc]
    cases hco : kwargs.get? "color" with
    | some v =>
      have : kwargs.has "color" = true := by simp [Dict.has, hco]
      simp only [this, hh, Bool.not_true, Bool.and_false, Bool.false_eq_true, if_false]
      exact ⟨fun k v h => h, fun k _ => trivial, by simp, fun _ _ => hcc⟩
    | none =>
      have : kwargs.has "color" = false := by simp [Dict.has, hco]
      simp only [this, hh, Bool.not_false, Bool.and_self, if_true]
      refine ⟨?_, ?_, ?_, by simp⟩
      · intro k v hk
        rw [Dict.get?_set, if_neg]
        · exact hk
        · rintro rfl; rw [hcc] at hk; simp at hk
      · intro k hk
        rw [Dict.get?_set_ne _ _ (Ne.symm hk)]
      · intro _ _
        rw [Dict.get?_set, if_pos rfl]

/-- **C145 (rejected input).** An unknown observable raises `KeyError`, one with another number of arguments
`ValueError`, for all three functions; `steps = 1` and an empty range are divisions by zero. -/
theorem C145_rejected {WC : Type} (P : Preds WC ℝ) (Q : Preds WC (ℝ × ℝ)) (interp) (a b sf : ℝ)
    (wc : Option WC) (n m : ℤ) (k : ℕ) (kwargs : Args) (pa fa : Option Args) (l : Option String)
    (bins : List (ℝ × ℝ)) (div : Bool) :
    diffPlotTh P none a b wc n sf kwargs = .error .keyError ∧
    diffPlotThErr P interp none a b wc n m l pa fa sf = .error .keyError ∧
    binPlotTh Q none bins wc div kwargs = .error .keyError ∧
    (k ≠ 1 → diffPlotTh P (some k) a b wc n sf kwargs = .error .valueError) ∧
    (k ≠ 1 → diffPlotThErr P interp (some k) a b wc n m l pa fa sf = .error .valueError) ∧
    (k ≠ 2 → binPlotTh Q (some k) bins wc div kwargs = .error .valueError) ∧
    diffPlotTh P (some 1) a b wc 1 sf kwargs = .error .zeroDivisionError ∧
    diffPlotTh P (some 1) a a wc n sf kwargs = .error .zeroDivisionError := by
  refine ⟨rfl, rfl, rfl, ?_, ?_, ?_, ?_, ?_⟩
  · intro h; simp [diffPlotTh, checkArgs, h, Bind.bind, Except.bind]
  · intro h; simp [diffPlotThErr, checkArgs, h, Bind.bind, Except.bind]
  · intro h; simp [binPlotTh, checkArgs, h, Bind.bind, Except.bind]
  · simp [diffPlotTh, checkArgs, stepSize, Bind.bind, Except.bind]
  · unfold diffPlotTh stepSize
    simp only [checkArgs, ne_eq, not_true, if_false, Bind.bind, Except.bind]
    split
    · rename_i h; split at h
      · injection h with h; rw [h]
      · simp at h
    · rename_i v h
      split at h
      · simp at h
      · injection h with h
        rw [← h]
        simp [arange]

/-! ## `diff_plot_th_err` -/

/-- What is assumed of `scipy.interpolate.interp1d(kind='quadratic')`: with at least three distinct nodes in
increasing order it returns a function defined on the range of the nodes and equal to the given values at
the nodes. (Specification.) -/
def Interpolates (interp : List ℝ → List ℝ → Except PyErr (ℝ → Except PyErr ℝ)) : Prop :=
  ∀ (f : ℝ → ℝ) (xs : List ℝ), 3 ≤ xs.length → xs.Pairwise (· < ·) →
    ∃ g : ℝ → ℝ, (∃ G, interp xs (xs.map f) = .ok G ∧
      ∀ x, (∀ y ∈ xs.head?, y ≤ x) → (∀ y ∈ xs.getLast?, x ≤ y) → G x = .ok (g x)) ∧
      ∀ x ∈ xs, g x = f x

theorem range_map_getLast (f : ℕ → ℝ) (n : ℕ) (h : 1 ≤ n) :
    ((List.range n).map f).getLast? = some (f (n - 1)) := by
  obtain ⟨m, rfl⟩ : ∃ m, n = m + 1 := ⟨n - 1, by omega⟩
  rw [List.range_succ, List.map_append]
  simp

theorem setLast_same (l : List ℝ) (v : ℝ) (h : l.getLast? = some v) : setLast l v = .ok l := by
  unfold setLast
  have hne : l ≠ [] := by rintro rfl; simp at h
  rw [if_neg hne]
  have : l.getLast hne = v := by rw [List.getLast?_eq_getLast_of_ne_nil hne] at h; exact Option.some.inj h
  rw [← this, List.dropLast_append_getLast hne]

theorem node_lt (a b : ℝ) (n i j : ℕ) (h : 2 ≤ n) (hab : a < b) (hij : i < j) : node a b n i < node a b n j := by
  have h2 : (2 : ℝ) ≤ n := by exact_mod_cast h
  have h0 : (0 : ℝ) < (n : ℝ) - 1 := by linarith
  unfold node
  have : (i : ℝ) < j := by exact_mod_cast hij
  have hs : 0 < (b - a) / ((n : ℝ) - 1) := by
    have : 0 < b - a := by linarith
    positivity
  have := mul_lt_mul_of_pos_right this hs
  linarith

/-- **C145 (curve with band).** For `steps = n ≥ 2`, `steps_err = m ≥ 3` and `x_min < x_max`, curve and band
have all `n` equidistant points from `x_min` to `x_max`, both included.  The curve is `scale_factor` times the
prediction, the band is `scale_factor` times prediction ∓ an uncertainty function which at the `m`
equidistant points equals the computed uncertainty. -/
theorem C145_band {WC : Type} (P : Preds WC ℝ) (interp) (hI : Interpolates interp) (a b sf : ℝ)
    (wc : Option WC) (n m : ℕ) (l : Option String) (pa fa : Option Args) (c u : ℝ → ℝ) (h : 2 ≤ n) (hm : 3 ≤ m)
    (hab : a < b) (hc : ∀ x, a ≤ x → x ≤ b → P.central wc x = .ok (c x))
    (hu : ∀ x, a ≤ x → x ≤ b → P.unc wc x = .ok (u x)) :
    ∃ (r : ErrPlot) (g : ℝ → ℝ), diffPlotThErr P interp (some 1) a b wc n m l pa fa sf = .ok r ∧
      r.curve = (List.range n).map (fun i => (node a b n i, sf * c (node a b n i))) ∧
      r.band = (List.range n).map (fun i => (node a b n i, sf * (c (node a b n i) - g (node a b n i)),
        sf * (c (node a b n i) + g (node a b n i)))) ∧
      (∀ j < m, g (node a b m j) = u (node a b m j)) := by
  have hne : a ≠ b := ne_of_lt hab
  have hm2 : 2 ≤ m := by omega
  have hn1 := node_last a b n h
  have hm1 := node_last a b m hm2
  have hlast : ((List.range m).map (node a b m)).getLast? = some b := by
    rw [range_map_getLast _ _ (by omega), hm1.2]
  have hlast' : ((List.range n).map (node a b n)).getLast? = some b := by
    rw [range_map_getLast _ _ (by omega), hn1.2]
  obtain ⟨g, ⟨G, hG, hGx⟩, hg⟩ := hI u ((List.range m).map (node a b m)) (by simpa using hm) (by
    rw [List.pairwise_map]
    exact List.Pairwise.imp (fun {i j} hij => node_lt a b m i j hm2 hab hij) List.pairwise_lt_range)
  have hin : ∀ (k : ℕ), 2 ≤ k → ∀ x ∈ (List.range k).map (node a b k), a ≤ x ∧ x ≤ b := by
    intro k hk x hx
    obtain ⟨i, hi, rfl⟩ := List.mem_map.1 hx
    exact node_mem a b k i hk hab (by have := List.mem_range.1 hi; omega)
  have hhead : ((List.range m).map (node a b m)).head? = some a := by
    obtain ⟨k, rfl⟩ : ∃ k, m = k + 1 := ⟨m - 1, by omega⟩
    rw [List.range_succ_eq_map]
    simp [hm1.1]
  have e1 := mapM_map_ok ((List.range m).map (node a b m)) (P.unc wc) u
    (fun x hx => hu x (hin m hm2 x hx).1 (hin m hm2 x hx).2)
  have e2 := mapM_map_ok ((List.range n).map (node a b n)) (P.central wc) c
    (fun x hx => hc x (hin n h x hx).1 (hin n h x hx).2)
  have e3 := mapM_map_ok ((List.range n).map (node a b n)) G g (fun x hx => hGx x
    (by intro y hy; rw [hhead] at hy; cases hy; exact (hin n h x hx).1)
    (by intro y hy; rw [hlast] at hy; cases hy; exact (hin n h x hx).2))
  unfold diffPlotThErr
  rw [stepSize_ok a b n h, stepSize_ok a b m hm2]
  simp only [checkArgs, ne_eq, not_true, if_false, Bind.bind, Except.bind]
  rw [arange_closed a b n h hne]
  simp only []
  rw [arange_closed a b m hm2 hne]
  simp only [last, hlast']
  rw [setLast_same _ _ hlast]
  simp only []
  rw [e1]; simp only []
  rw [e2]; simp only []
  rw [hG]; simp only []
  rw [e3]; simp only []
  refine ⟨_, g, rfl, ?_, ?_, ?_⟩
  · dsimp only
    rw [List.map_map, zip_map_self, List.map_map]; rfl
  · dsimp only
    rw [List.zip_map', List.map_map, zip_map_self, List.map_map]; rfl
  · intro j hj
    exact hg _ (List.mem_map.2 ⟨j, List.mem_range.2 hj, rfl⟩)

/-- **C145 (arguments of curve and band).** The label goes to the curve, the band gets the default opacity 0.5
unless one is given; everything else is handed on unchanged. -/
theorem C145_band_args {WC : Type} (P : Preds WC ℝ) (interp) (obs : Option ℕ) (a b sf : ℝ) (wc : Option WC)
    (n m : ℤ) (l : Option String) (pa fa : Option Args) (r)
    (h : diffPlotThErr P interp obs a b wc n m l pa fa sf = .ok r) :
    (∀ k, r.curveArgs.get? k = if k = "label" ∧ l.isSome then l.map .str else (pa.getD []).get? k) ∧
    (∀ k, k ≠ "alpha" → r.bandArgs.get? k = (fa.getD []).get? k) ∧
    r.bandArgs.get? "alpha" = some (((fa.getD []).get? "alpha").getD (.num 0.5)) ∧
    (r.callerPlotArgs = if (pa.getD []) = [] then pa else some r.curveArgs) ∧
    (r.callerFillArgs = if (fa.getD []) = [] then fa else some r.bandArgs) := by
  have hr : ∃ cu ba, r = ⟨cu, (orNew pa (setLabel l)).1, ba, (orNew fa setAlpha).1, (orNew pa (setLabel l)).2,
      (orNew fa setAlpha).2⟩ := by
    unfold diffPlotThErr at h
    obtain ⟨_, -, h⟩ := bindOk h
    obtain ⟨_, -, h⟩ := bindOk h
    obtain ⟨_, -, h⟩ := bindOk h
    obtain ⟨_, -, h⟩ := bindOk h
    obtain ⟨_, -, h⟩ := bindOk h
    obtain ⟨_, -, h⟩ := bindOk h
    obtain ⟨_, -, h⟩ := bindOk h
    obtain ⟨_, -, h⟩ := bindOk h
    obtain ⟨_, -, h⟩ := bindOk h
    obtain ⟨_, -, h⟩ := bindOk h
    obtain ⟨_, -, h⟩ := bindOk h
    injection h with h
    exact ⟨_, _, h.symm⟩
  obtain ⟨cu, ba, rfl⟩ := hr
  have key : ∀ (d : Option Args) (f : Args → Args), (orNew d f).1 = f (d.getD []) ∧
      (orNew d f).2 = if d.getD [] = [] then d else some (f (d.getD [])) := by
    intro d f
    match d with
    | none => exact ⟨rfl, rfl⟩
    | some [] => exact ⟨rfl, rfl⟩
    | some (e :: l) => exact ⟨rfl, by simp [orNew]⟩
  simp only [(key _ _).1, (key _ _).2]
  unfold setLabel setAlpha
  refine ⟨?_, ?_, ?_, trivial, trivial⟩
  · intro k
    cases l with
    | none => simp
    | some l =>
      simp only [Dict.get?_set, Option.isSome_some, and_true, Option.map_some]
      by_cases hk : k = "label"
      · simp [hk]
      · simp [hk, Ne.symm hk]
  · intro k hk
    split
    · exact Dict.get?_set_ne _ _ (Ne.symm hk)
    · rfl
  · cases ha : (fa.getD []).get? "alpha" with
    | none => simp [Dict.has, ha, Dict.get?_set]
    | some v => simp [Dict.has, ha]

/-- The claim that a caller's dictionaries are left alone. (Specification.) -/
def CallerUnchanged : Prop :=
  ∀ (interp) (c : ℝ → ℝ) (pa fa : Option Args) (l : Option String) (r),
    diffPlotThErr (WC := Unit) ⟨fun x => .ok (c x), fun _ => .ok 0, fun _ x => .ok (c x), fun _ _ => .ok 0⟩ interp
      (some 1) 0 1 none 3 3 l pa fa 1 = .ok r → r.callerPlotArgs = pa ∧ r.callerFillArgs = fa

/-- **C145 (caller's dictionaries, finding).** A non-empty dictionary passed as `plot_args` or `fill_args` is
changed in place: it receives the label of this plot, or the default opacity, and carries them into the next
plot it is used for. -/
theorem C145_caller_dict_changed : ¬ CallerUnchanged := by
  intro hfull
  have hI : Interpolates fun xs ys => .ok fun x =>
      match (xs.zip ys).find? fun p => decide (p.1 = x) with
      | none => .ok 0
      | some p => .ok p.2 := by
    intro f xs _ _
    refine ⟨fun x => match (xs.zip (xs.map f)).find? fun p => decide (p.1 = x) with
      | none => 0
      | some p => p.2, ⟨_, rfl, ?_⟩, ?_⟩
    · intro x _ _
      dsimp only
      cases (xs.zip (xs.map f)).find? fun p => decide (p.1 = x) <;> rfl
    · intro x hx
      rw [zip_map_self]
      simp only [List.find?_map]
      cases hf : List.find? ((fun p : ℝ × ℝ => decide (p.1 = x)) ∘ fun x => (x, f x)) xs with
      | none =>
        rw [List.find?_eq_none] at hf
        exact absurd (by simp) (hf x hx)
      | some y =>
        have := List.find?_some hf
        simp only [Function.comp, decide_eq_true_eq] at this
        simp [this]
  obtain ⟨r, g, he, -⟩ := C145_band (WC := Unit)
    ⟨fun x => .ok x, fun _ => .ok 0, fun _ x => .ok x, fun _ _ => .ok 0⟩ _ hI 0 1 1 none 3 3 (some "SM")
    (some [("color", .str "r")]) none (fun x => x) (fun _ => 0) (by omega) (by omega) (by norm_num)
    (fun x _ _ => rfl) (fun x _ _ => rfl)
  have h1 := (hfull _ (fun x => x) _ _ _ r he).1
  have h2 := (C145_band_args _ _ _ _ _ _ _ _ _ _ _ _ r he)
  have h3 := h2.2.2.2.1
  rw [h1] at h3
  simp only [Option.getD_some, reduceCtorEq, if_false, List.cons_ne_nil] at h3
  have h4 := h2.1 "label"
  rw [← Option.some.inj h3] at h4
  simp [Dict.get?] at h4

/-! ## `bin_plot_th` -/

/-- The dictionary comprehension over the bins: each bin once, in an order of first appearance, with the value
of the function. -/
theorem binDict_ok (f : ℝ × ℝ → Except PyErr ℝ) (c : ℝ × ℝ → ℝ) (bins : List (ℝ × ℝ))
    (h : ∀ b ∈ bins, f b = .ok (c b)) (ks : List (ℝ × ℝ)) (hn : ks.Nodup) :
    ∃ ks', binDict f bins (ks.map fun b => (b, c b)) = .ok ((ks ++ ks').map fun b => (b, c b)) ∧
      (ks ++ ks').Nodup ∧ (∀ b, b ∈ ks ++ ks' ↔ b ∈ ks ∨ b ∈ bins) ∧ ks'.Sublist bins := by
  induction bins generalizing ks with
  | nil => exact ⟨[], by simp [binDict], by simpa using hn, by simp, by simp⟩
  | cons b l ih =>
    have hb := h b (by simp)
    have hl : ∀ x ∈ l, f x = .ok (c x) := fun x hx => h x (by simp [hx])
    have hk : Dict.keys (ks.map fun b => (b, c b)) = ks := by simp [Dict.keys, Function.comp_def]
    by_cases hm : b ∈ ks
    · have hset : Dict.set (ks.map fun b => (b, c b)) b (c b) = ks.map fun b => (b, c b) := by
        clear ih hn hk
        induction ks with
        | nil => simp at hm
        | cons k ks ihk =>
          by_cases hkb : k = b
          · simp [Dict.set, hkb]
          · have : b ∈ ks := by
              rcases List.mem_cons.1 hm with h0 | h0
              · exact absurd h0.symm hkb
              · exact h0
            simp [Dict.set, hkb, ihk this]
      obtain ⟨ks', e, n', m', s'⟩ := ih hl ks hn
      refine ⟨ks', ?_, n', ?_, s'.cons b⟩
      · simp only [binDict, hb, Bind.bind, Except.bind, hset, e]
      · intro x
        rw [m' x, List.mem_cons]
        constructor
        · rintro (h0 | h0)
          · exact Or.inl h0
          · exact Or.inr (Or.inr h0)
        · rintro (h0 | rfl | h0)
          · exact Or.inl h0
          · exact Or.inl hm
          · exact Or.inr h0
    · have hset : Dict.set (ks.map fun b => (b, c b)) b (c b) = (ks ++ [b]).map fun b => (b, c b) := by
        rw [Dict.set_of_not_mem (by rw [hk]; exact hm)]
        simp
      obtain ⟨ks', e, n', m', s'⟩ := ih hl (ks ++ [b]) (by
        rw [List.nodup_append]
        refine ⟨hn, by simp, ?_⟩
        intro x hx y hy
        rw [List.mem_singleton] at hy
        rintro rfl
        exact hm (hy ▸ hx))
      refine ⟨b :: ks', ?_, ?_, ?_, s'.cons_cons b⟩
      · simp only [binDict, hb, Bind.bind, Except.bind, hset, e]
        simp
      · simpa using n'
      · intro x
        have := m' x
        simp only [List.append_assoc, List.singleton_append, List.mem_append, List.mem_cons] at this ⊢
        tauto

theorem get?_map (ks : List (ℝ × ℝ)) (u : ℝ × ℝ → ℝ) (b : ℝ × ℝ) (hb : b ∈ ks) :
    Dict.getItem (ks.map fun b => (b, u b)) b = .ok (u b) := by
  have : Dict.get? (ks.map fun b => (b, u b)) b = some (u b) := by
    induction ks with
    | nil => simp at hb
    | cons k ks ih =>
      by_cases hkb : k = b
      · simp [Dict.get?, hkb]
      · have : b ∈ ks := by
          rcases List.mem_cons.1 hb with h0 | h0
          · exact absurd h0.symm hkb
          · exact h0
        simp [Dict.get?, hkb, ih this]
  simp [Dict.getItem, this]

/-- A box is what it should be for a bin: it spans the bin horizontally and the interval central ∓ uncertainty
(divided by `w`) vertically. (Specification.) -/
def IsBox (c u w : ℝ) (b : ℝ × ℝ) (x : Box) : Prop :=
  x.x = b.1 ∧ x.x + x.width = b.2 ∧ x.y = (c - u) / w ∧ x.y + x.height = (c + u) / w

theorem boxDefaults_get (kw : Args) (k : String) :
    (boxDefaults kw).get? k =
      if k = "fc" ∧ kw.get? "fc" = none ∧ kw.get? "facecolor" = none then some (.str "C6")
      else if k = "lw" ∧ kw.get? "lw" = none ∧ kw.get? "linewidth" = none then some (.num 0)
      else kw.get? k := by
  unfold boxDefaults
  simp only [Dict.has]
  by_cases h1 : kw.get? "fc" = none ∧ kw.get? "facecolor" = none
  · obtain ⟨h1, h1'⟩ := h1
    simp only [h1, h1', Option.isSome_none, Bool.not_false, Bool.and_self, if_true, Dict.get?_set, and_true]
    by_cases h2 : kw.get? "lw" = none ∧ kw.get? "linewidth" = none
    · obtain ⟨h2, h2'⟩ := h2
      simp only [h2, h2', if_neg (show ¬ ("fc" = "linewidth") by decide), if_neg (show ¬ ("fc" = "lw") by decide),
        Option.isSome_none, Bool.not_false, Bool.and_self, if_true, Dict.get?_set, and_true]
      by_cases hk : k = "fc"
      · subst hk; simp
      · by_cases hl : k = "lw"
        · subst hl; simp
        · simp [hk, hl, Ne.symm hk, Ne.symm hl]
    · have : (!(if "fc" = "linewidth" then some (PyVal.str "C6") else kw.get? "linewidth").isSome &&
          !(if "fc" = "lw" then some (PyVal.str "C6") else kw.get? "lw").isSome) = false := by
        rw [if_neg (show ¬ ("fc" = "linewidth") by decide), if_neg (show ¬ ("fc" = "lw") by decide)]
        cases ha : kw.get? "lw" <;> cases hb : kw.get? "linewidth" <;> simp_all
      rw [this]
      simp only [Bool.false_eq_true, if_false, Dict.get?_set]
      have h3 : ¬ (k = "lw" ∧ kw.get? "lw" = none ∧ kw.get? "linewidth" = none) := fun h => h2 h.2
      rw [if_neg h3]
      by_cases hk : k = "fc"
      · simp [hk]
      · simp [hk, Ne.symm hk]
  · have : (!(kw.get? "fc").isSome && !(kw.get? "facecolor").isSome) = false := by
      cases ha : kw.get? "fc" <;> cases hb : kw.get? "facecolor" <;> simp_all
    simp only [this, Bool.false_eq_true, if_false]
    have h3 : ¬ (k = "fc" ∧ kw.get? "fc" = none ∧ kw.get? "facecolor" = none) := fun h => h1 h.2
    rw [if_neg h3]
    by_cases h2 : kw.get? "lw" = none ∧ kw.get? "linewidth" = none
    · obtain ⟨h2, h2'⟩ := h2
      simp only [h2, h2', Option.isSome_none, Bool.not_false, Bool.and_self, if_true, Dict.get?_set, and_true]
      by_cases hl : k = "lw"
      · simp [hl]
      · simp [hl, Ne.symm hl]
    · have : (!(kw.get? "linewidth").isSome && !(kw.get? "lw").isSome) = false := by
        cases ha : kw.get? "lw" <;> cases hb : kw.get? "linewidth" <;> simp_all
      simp only [this, Bool.false_eq_true, if_false]
      have h3 : ¬ (k = "lw" ∧ kw.get? "lw" = none ∧ kw.get? "linewidth" = none) := fun h => h2 h.2
      rw [if_neg h3]

/-- What the keyword arguments of the `i`-th box should be. (Specification.) -/
noncomputable def boxArg (kw : Args) (i : ℕ) (k : String) : Option PyVal :=
  if k = "label" then (if i = 0 then kw.get? "label" else none)
  else if k = "fc" ∧ kw.get? "fc" = none ∧ kw.get? "facecolor" = none then some (.str "C6")
  else if k = "lw" ∧ kw.get? "lw" = none ∧ kw.get? "linewidth" = none then some (.num 0)
  else kw.get? k

theorem boxLoop_ok (c u : ℝ × ℝ → ℝ) (es : Dict (ℝ × ℝ) ℝ) (div : Bool) (kw0 : Args) (l : List (ℝ × ℝ))
    (he : ∀ b ∈ l, es.getItem b = .ok (u b)) (hw : div = true → ∀ b ∈ l, b.2 ≠ b.1) (i : ℕ) (kw : Args)
    (hk : ∀ k, (if i > 0 then (boxDefaults kw).erase "label" else boxDefaults kw).get? k = boxArg kw0 i k) :
    ∃ r, boxLoop es div i kw (l.map fun b => (b, c b)) = .ok r ∧
      List.Forall₂ (fun b x => IsBox (c b) (u b) (if div then b.2 - b.1 else 1) b x) l r ∧
      ∀ j x, r[j]? = some x → ∀ k, x.args.get? k = boxArg kw0 (i + j) k := by
  induction l generalizing i kw with
  | nil => exact ⟨[], rfl, .nil, by simp⟩
  | cons b l ih =>
    have hnext : ∀ k, (if i + 1 > 0 then (boxDefaults (if i > 0 then (boxDefaults kw).erase "label" else
        boxDefaults kw)).erase "label" else boxDefaults (if i > 0 then (boxDefaults kw).erase "label" else
        boxDefaults kw)).get? k = boxArg kw0 (i + 1) k := by
      intro k
      rw [if_pos (by omega), Dict.get?_erase, boxDefaults_get]
      simp only [hk]
      unfold boxArg
      by_cases hkl : k = "label"
      · simp [hkl]
      · have e1 : ¬ "label" = k := Ne.symm hkl
        simp only [hkl, e1, if_false, if_neg (show ¬ ("fc" = "label") by decide),
          if_neg (show ¬ ("lw" = "label") by decide), if_neg (show ¬ ("facecolor" = "label") by decide),
          if_neg (show ¬ ("linewidth" = "label") by decide)]
        simp only [if_neg (show ¬ ("facecolor" = "fc" ∧ kw0.get? "fc" = none ∧ kw0.get? "facecolor" = none) by simp),
          if_neg (show ¬ ("facecolor" = "lw" ∧ kw0.get? "lw" = none ∧ kw0.get? "linewidth" = none) by simp),
          if_neg (show ¬ ("linewidth" = "fc" ∧ kw0.get? "fc" = none ∧ kw0.get? "facecolor" = none) by simp),
          if_neg (show ¬ ("linewidth" = "lw" ∧ kw0.get? "lw" = none ∧ kw0.get? "linewidth" = none) by simp),
          if_neg (show ¬ ("fc" = "lw" ∧ kw0.get? "lw" = none ∧ kw0.get? "linewidth" = none) by simp),
          if_neg (show ¬ ("lw" = "fc" ∧ kw0.get? "fc" = none ∧ kw0.get? "facecolor" = none) by simp)]
        by_cases h1 : kw0.get? "fc" = none ∧ kw0.get? "facecolor" = none
        · by_cases h2 : kw0.get? "lw" = none ∧ kw0.get? "linewidth" = none
          · simp [h1.1, h1.2, h2.1, h2.2]
          · simp [h1.1, h1.2, h2]
        · by_cases h2 : kw0.get? "lw" = none ∧ kw0.get? "linewidth" = none
          · simp [h1, h2.1, h2.2]
          · simp [h1, h2]
    obtain ⟨r, hr, hb, ha⟩ := ih (fun x hx => he x (by simp [hx])) (fun hd x hx => hw hd x (by simp [hx]))
      (i + 1) _ hnext
    have hdiv : ∀ v, (if div = true then divide v (b.2 - b.1) else Except.ok v)
        = Except.ok (v / (if div then b.2 - b.1 else 1)) := by
      intro v
      cases div with
      | false => simp
      | true =>
        have := hw rfl b (by simp)
        simp [divide, sub_ne_zero.2 this]
    refine ⟨⟨b.1, c b / (if div then b.2 - b.1 else 1) - u b / (if div then b.2 - b.1 else 1), b.2 - b.1,
      2 * (u b / (if div then b.2 - b.1 else 1)),
      if i > 0 then (boxDefaults kw).erase "label" else boxDefaults kw⟩ :: r, ?_, .cons ?_ hb, ?_⟩
    · simp only [List.map_cons, boxLoop, he b (by simp), Bind.bind, Except.bind, hdiv]
      simp only [hr]
    · unfold IsBox
      refine ⟨rfl, by simp, by simp only []; ring, by simp only []; ring⟩
    · intro j x hx k
      cases j with
      | zero =>
        simp only [List.getElem?_cons_zero, Option.some.injEq] at hx
        rw [← hx]
        exact hk k
      | succ j =>
        rw [List.getElem?_cons_succ] at hx
        rw [ha j x hx k]
        congr 1; omega

/-- **C145 (boxes).** `bin_plot_th` draws exactly one box for each different bin of the list, in their order;
it spans the bin and the interval central value ∓ uncertainty of the Standard Model (without Wilson
coefficients) or of the given Wilson coefficients, divided by the bin width if asked for.  Only the first box
carries the label; the user's keyword arguments are kept, and the default colour and line width are used
exactly when they are given under none of their two names. -/
theorem C145_boxes {WC : Type} (P : Preds WC (ℝ × ℝ)) (bins : List (ℝ × ℝ)) (wc : Option WC) (div : Bool)
    (kwargs : Args) (c u : ℝ × ℝ → ℝ)
    (hc : ∀ b ∈ bins, (match wc with
      | none => P.smPrediction b
      | some w => P.npPrediction w b) = .ok (c b))
    (hu : ∀ b ∈ bins, (match wc with
      | none => P.smUncertainty b
      | some w => P.npUncertainty w b) = .ok (u b))
    (hw : div = true → ∀ b ∈ bins, b.1 ≠ b.2) :
    ∃ boxes ks, binPlotTh P (some 2) bins wc div kwargs = .ok boxes ∧
      ks.Nodup ∧ (∀ b, b ∈ ks ↔ b ∈ bins) ∧ ks.Sublist bins ∧
      List.Forall₂ (fun b x => IsBox (c b) (u b) (if div then b.2 - b.1 else 1) b x) ks boxes ∧
      ∀ i x, boxes[i]? = some x → ∀ k, x.args.get? k = boxArg kwargs i k := by
  obtain ⟨ks, h1, h2, h3, h4⟩ := binDict_ok (P.central wc) c bins (by
    intro b hb
    have := hc b hb
    cases wc <;> exact this) [] List.nodup_nil
  obtain ⟨ks', h1', h2', h3', h4'⟩ := binDict_ok (P.unc wc) u bins (by
    intro b hb
    have := hu b hb
    cases wc <;> exact this) [] List.nodup_nil
  simp only [List.map_nil, List.nil_append, List.not_mem_nil, false_or] at h1 h2 h3 h1' h2' h3'
  obtain ⟨r, hr, hb, ha⟩ := boxLoop_ok c u (ks'.map fun b => (b, u b)) div kwargs ks
    (fun b hb => get?_map ks' u b ((h3' b).2 ((h3 b).1 hb)))
    (fun hd b hb => Ne.symm (hw hd b ((h3 b).1 hb))) 0 kwargs (by
      intro k
      rw [if_neg (by omega), boxDefaults_get]
      unfold boxArg
      by_cases hk : k = "label"
      · simp [hk]
      · simp [hk])
  refine ⟨r, ks, ?_, h2, h3, h4, hb, ?_⟩
  · unfold binPlotTh
    rw [h1, h1']
    simp only [checkArgs, ne_eq, not_true, if_false, Bind.bind, Except.bind]
    exact hr
  · intro i x hx k
    rw [ha i x hx k, Nat.zero_add]

/-- **C145 (empty bins).** Dividing by the width of an empty bin is a division by zero. -/
theorem C145_zero_width {WC : Type} (P : Preds WC (ℝ × ℝ)) (x : ℝ) (wc : Option WC) (kwargs : Args) (c u : ℝ)
    (hc : P.central wc (x, x) = .ok c) (hu : P.unc wc (x, x) = .ok u) :
    binPlotTh P (some 2) [(x, x)] wc true kwargs = .error .zeroDivisionError := by
  unfold binPlotTh
  simp [checkArgs, binDict, hc, hu, Bind.bind, Except.bind, boxLoop, Dict.set, Dict.getItem, Dict.get?, divide]

/-- A concrete case: two bins, one of them given twice, with a label: two boxes, only the first labelled. -/
theorem C145_nonvacuous : ∃ b1 b2,
    binPlotTh (WC := Unit) ⟨fun b => .ok (b.1 + b.2), fun _ => .ok 1, fun _ _ => .ok 0, fun _ _ => .ok 0⟩ (some 2)
      [(1, 2), (2, 4), (1, 2)] none true [("label", .str "SM")] = .ok [b1, b2] ∧
    b1.y = 2 ∧ b1.y + b1.height = 4 ∧ b2.y = 5 / 2 ∧ b2.y + b2.height = 7 / 2 ∧
    b1.args.get? "label" = some (.str "SM") ∧ b2.args.get? "label" = none ∧
    b2.args.get? "fc" = some (.str "C6") := by
  obtain ⟨boxes, ks, h, hn, hm, hs, hb, ha⟩ := C145_boxes (WC := Unit)
    ⟨fun b => .ok (b.1 + b.2), fun _ => .ok 1, fun _ _ => .ok 0, fun _ _ => .ok 0⟩
    [(1, 2), (2, 4), (1, 2)] none true [("label", .str "SM")] (fun b => b.1 + b.2) (fun _ => 1)
    (by intro b _; rfl) (by intro b _; rfl) (by intro _ b hb; fin_cases hb <;> norm_num)
  unfold binPlotTh
  simp only [checkArgs, ne_eq, not_true, if_false, Bind.bind, Except.bind, Preds.central, Preds.unc, binDict,
    Dict.set, Prod.mk.injEq, show ¬ ((1 : ℝ) = 2) by norm_num, show ¬ ((2 : ℝ) = 4) by norm_num, false_and, and_self,
    show ¬ ((2 : ℝ) = 1) by norm_num, and_true, true_and, if_true, if_false]
  simp only [boxLoop, Dict.getItem, Dict.get?, Prod.mk.injEq, show ¬ ((1 : ℝ) = 2) by norm_num, false_and, if_true,
    if_false, and_self, Bind.bind, Except.bind, divide, show ¬ ((2 : ℝ) - 1 = 0) by norm_num,
    show ¬ ((4 : ℝ) - 2 = 0) by norm_num]
  refine ⟨_, _, rfl, ?_, ?_, ?_, ?_, ?_, ?_, ?_⟩
  · norm_num
  · norm_num
  · norm_num
  · norm_num
  · rw [if_neg (by omega), boxDefaults_get]; simp [Dict.get?]
  · rw [if_pos (by omega), Dict.get?_erase]; simp
  · rw [if_pos (by omega), Dict.get?_erase, if_neg (by decide)]
    simp [boxDefaults_get, Dict.get?]

end Verif.Plots
