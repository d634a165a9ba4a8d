import Verif.Num.Model
import Mathlib.Tactic.Linarith
import Mathlib.Tactic.NormNum
import Mathlib.Tactic.Positivity
import Mathlib.Tactic.Ring
import Mathlib.Algebra.Order.Floor.Ring
import Mathlib.Data.Rat.Floor

/-!
# C42: the recursive filter; C43: time conversion
-/

namespace Verif.Num

/-! ## C42 -/

/-- The filtered values that a sequence of samples produces, in order. -/
def outputs (rn : ℚ → ℚ) (a b : ℚ) : ℚ → List ℚ → List ℚ
  | _, [] => []
  | v, x :: xs => let v' := rn (rn (a * x) + rn (b * v)); v' :: outputs rn a b v' xs

/-- `m` is the greatest of the values. -/
def IsMax (m : ℚ) (l : List ℚ) : Prop := m ∈ l ∧ ∀ v ∈ l, v ≤ m
def IsMin (m : ℚ) (l : List ℚ) : Prop := m ∈ l ∧ ∀ v ∈ l, m ≤ v

theorem max_snoc {m v : ℚ} {l : List ℚ} (h : IsMax m l) : IsMax (if v > m then v else m) (l ++ [v]) := by
  obtain ⟨h1, h2⟩ := h
  split
  · rename_i hv
    refine ⟨by simp, ?_⟩
    intro w hw
    rcases List.mem_append.1 hw with hw | hw
    · exact le_of_lt (lt_of_le_of_lt (h2 w hw) hv)
    · simp at hw; rw [hw]
  · rename_i hv
    refine ⟨by simp [h1], ?_⟩
    intro w hw
    rcases List.mem_append.1 hw with hw | hw
    · exact h2 w hw
    · simp at hw; rw [hw]; exact not_lt.1 hv

theorem min_snoc {m v : ℚ} {l : List ℚ} (h : IsMin m l) : IsMin (if v < m then v else m) (l ++ [v]) := by
  obtain ⟨h1, h2⟩ := h
  split
  · rename_i hv
    refine ⟨by simp, ?_⟩
    intro w hw
    rcases List.mem_append.1 hw with hw | hw
    · exact le_of_lt (lt_of_lt_of_le hv (h2 w hw))
    · simp at hw; rw [hw]
  · rename_i hv
    refine ⟨by simp [h1], ?_⟩
    intro w hw
    rcases List.mem_append.1 hw with hw | hw
    · exact h2 w hw
    · simp at hw; rw [hw]; exact not_lt.1 hv

theorem runInt_ext (rn : ℚ → ℚ) : ∀ (xs : List ℤ) (f : Filt) (seen : List ℚ), f.peak = true → IsMax f.maxval seen →
    IsMin f.minval seen → IsMax (f.runInt rn xs).maxval (seen ++ outputs rn f.a f.b f.lastval (xs.map (↑))) ∧
    IsMin (f.runInt rn xs).minval (seen ++ outputs rn f.a f.b f.lastval (xs.map (↑)))
  | [], f, seen, _, h1, h2 => by simpa [Filt.runInt, outputs] using ⟨h1, h2⟩
  | x :: xs, f, seen, hp, h1, h2 => by
    have e : f.applyInt rn x = { f with
        lastval := f.next rn x
        maxval := if f.next rn x > f.maxval then f.next rn x else f.maxval
        minval := if f.next rn x < f.minval then f.next rn x else f.minval } := by
      unfold Filt.applyInt
      simp only [hp, if_true]
      split <;> split <;> simp_all
    have := runInt_ext rn xs (f.applyInt rn x) (seen ++ [f.next rn x]) (by rw [e]; exact hp)
      (by rw [e]; exact max_snoc h1) (by rw [e]; exact min_snoc h2)
    rw [e] at this
    simp only [Filt.runInt, List.map_cons, outputs]
    rw [e]
    simpa [Filt.next] using this

/-- After any samples the extremes reported by the integer variant are the least and the greatest of the initial value
and the values produced — however the arithmetic rounds. -/
theorem C42_extremes_int (rn : ℚ → ℚ) (c v : ℚ) (xs : List ℤ) :
    IsMax ((Filt.init c v true).runInt rn xs).maxval (v :: outputs rn (1 - c) c v (xs.map (↑))) ∧
    IsMin ((Filt.init c v true).runInt rn xs).minval (v :: outputs rn (1 - c) c v (xs.map (↑))) := by
  have := runInt_ext rn xs (Filt.init c v true) [v] rfl ⟨by simp [Filt.init], by simp [Filt.init]⟩
    ⟨by simp [Filt.init], by simp [Filt.init]⟩
  simpa [Filt.init] using this

theorem run_max (rn : ℚ → ℚ) : ∀ (xs : List ℚ) (f : Filt) (seen : List ℚ), f.peak = true → IsMax f.maxval seen →
    IsMax (f.run rn xs).maxval (seen ++ outputs rn f.a f.b f.lastval xs)
  | [], f, seen, _, h1 => by simpa [Filt.run, outputs] using h1
  | x :: xs, f, seen, hp, h1 => by
    have e : (f.apply rn x).peak = true ∧ (f.apply rn x).a = f.a ∧ (f.apply rn x).b = f.b ∧
        (f.apply rn x).lastval = f.next rn x ∧
        (f.apply rn x).maxval = if f.next rn x > f.maxval then f.next rn x else f.maxval := by
      unfold Filt.apply
      simp only [hp, if_true]
      split <;> split <;> simp_all
    obtain ⟨e1, e2, e3, e4, e5⟩ := e
    have := run_max rn xs (f.apply rn x) (seen ++ [f.next rn x]) e1 (by rw [e5]; exact max_snoc h1)
    rw [e2, e3, e4] at this
    simp only [Filt.run, outputs]
    simpa [Filt.next] using this

/-- The floating point variant reports the greatest value right; of the least one only this is true: it is one of the
values seen so long as no value falls below it. -/
theorem C42_maximum_partial (rn : ℚ → ℚ) (c v : ℚ) (xs : List ℚ) :
    IsMax ((Filt.init c v true).run rn xs).maxval (v :: outputs rn (1 - c) c v xs) := by
  have := run_max rn xs (Filt.init c v true) [v] rfl ⟨by simp [Filt.init], by simp [Filt.init]⟩
  simpa [Filt.init] using this

theorem run_min_rising (rn : ℚ → ℚ) : ∀ (xs : List ℚ) (f : Filt), f.peak = true →
    (∀ w ∈ outputs rn f.a f.b f.lastval xs, f.minval ≤ w) → (f.run rn xs).minval = f.minval
  | [], f, _, _ => rfl
  | x :: xs, f, hp, h => by
    have hx : f.minval ≤ f.next rn x := h _ (by simp [outputs, Filt.next])
    have e : (f.apply rn x).peak = true ∧ (f.apply rn x).a = f.a ∧ (f.apply rn x).b = f.b ∧
        (f.apply rn x).lastval = f.next rn x ∧ (f.apply rn x).minval = f.minval := by
      unfold Filt.apply
      have : ¬ f.next rn x < f.minval := not_lt.2 hx
      simp only [hp, if_true]
      split <;> simp_all
    obtain ⟨e1, e2, e3, e4, e5⟩ := e
    have := run_min_rising rn xs (f.apply rn x) e1 (by
      rw [e2, e3, e4, e5]
      intro w hw
      exact h w (by simp only [outputs, List.mem_cons]; exact .inr hw))
    simp only [Filt.run]
    rw [this, e5]

/-- The least value is right as long as nothing falls below the initial value. -/
theorem C42_minimum_partial (rn : ℚ → ℚ) (c v : ℚ) (xs : List ℚ)
    (h : ∀ w ∈ outputs rn (1 - c) c v xs, v ≤ w) :
    IsMin ((Filt.init c v true).run rn xs).minval (v :: outputs rn (1 - c) c v xs) := by
  have := run_min_rising rn xs (Filt.init c v true) rfl (by simpa [Filt.init] using h)
  rw [this]
  simpa [Filt.init, IsMin] using h

example : ∀ w ∈ outputs id (1 - 1/2) (1/2) 1 [3, 2], (1 : ℚ) ≤ w := by decide +kernel

/-- The floating point variant stores the greatest value as the least one: one sample of 0 after an initial value of 1
leaves both extremes at 1, although the value is 1/2. -/
theorem C42_minimum_counterexample : ((Filt.init (1/2) 1 true).run id [0]).minval = 1 ∧
    ((Filt.init (1/2) 1 true).run id [0]).lastval = 1/2 ∧
    ¬ IsMin ((Filt.init (1/2) 1 true).run id [0]).minval (1 :: outputs id (1 - 1/2) (1/2) 1 [0]) := by
  refine ⟨by decide +kernel, by decide +kernel, ?_⟩
  intro h
  have := h.2 (1/2) (by decide +kernel)
  revert this
  decide +kernel

theorem outputs_bounded (c : ℚ) (h0 : 0 ≤ c) (h1 : c ≤ 1) (lo hi : ℚ) : ∀ (xs : List ℚ) (v : ℚ), lo ≤ v → v ≤ hi →
    (∀ x ∈ xs, lo ≤ x ∧ x ≤ hi) → ∀ w ∈ outputs id (1 - c) c v xs, lo ≤ w ∧ w ≤ hi
  | [], _, _, _, _, w, hw => by simp [outputs] at hw
  | x :: xs, v, hv1, hv2, hx, w, hw => by
    have hxx := hx x (by simp)
    have a1 : lo ≤ (1 - c) * x + c * v := by nlinarith
    have a2 : (1 - c) * x + c * v ≤ hi := by nlinarith
    simp only [outputs, List.mem_cons, id] at hw
    rcases hw with rfl | hw
    · exact ⟨a1, a2⟩
    · exact outputs_bounded c h0 h1 lo hi xs _ a1 a2 (fun y hy => hx y (by simp [hy])) w hw

/-- `lastval` is the last of the outputs. -/
theorem run_last (rn : ℚ → ℚ) : ∀ (xs : List ℚ) (f : Filt), (f.run rn xs).lastval =
    (outputs rn f.a f.b f.lastval xs).getLastD f.lastval
  | [], f => rfl
  | x :: xs, f => by
    have e : (f.apply rn x).a = f.a ∧ (f.apply rn x).b = f.b ∧ (f.apply rn x).lastval = f.next rn x := by
      unfold Filt.apply
      simp only
      split
      · split <;> split <;> simp_all
      · simp
    have := run_last rn xs (f.apply rn x)
    rw [e.1, e.2.1, e.2.2] at this
    simp only [Filt.run, outputs, List.getLastD_cons]
    rw [this]
    rfl

theorem runInt_last (rn : ℚ → ℚ) : ∀ (xs : List ℤ) (f : Filt), (f.runInt rn xs).lastval =
    (outputs rn f.a f.b f.lastval (xs.map (↑))).getLastD f.lastval
  | [], f => rfl
  | x :: xs, f => by
    have e : (f.applyInt rn x).a = f.a ∧ (f.applyInt rn x).b = f.b ∧ (f.applyInt rn x).lastval = f.next rn x := by
      unfold Filt.applyInt
      simp only
      split
      · split <;> split <;> simp_all
      · simp
    have := runInt_last rn xs (f.applyInt rn x)
    rw [e.1, e.2.1, e.2.2] at this
    simp only [Filt.runInt, outputs, List.getLastD_cons, List.map_cons]
    rw [this]
    rfl

theorem getLastD_mem_cons (v : ℚ) : ∀ l : List ℚ, l.getLastD v ∈ v :: l
  | [] => by simp
  | a :: l => by rw [List.getLastD_cons]; exact List.mem_cons_of_mem _ (getLastD_mem_cons a l)

theorem bounded_of {c : ℚ} (h0 : 0 ≤ c) (h1 : c ≤ 1) {lo hi v : ℚ} {xs : List ℚ}
    (hx : ∀ x ∈ v :: xs, lo ≤ x ∧ x ≤ hi) : lo ≤ (outputs id (1 - c) c v xs).getLastD v ∧
    (outputs id (1 - c) c v xs).getLastD v ≤ hi := by
  have hv := hx v (by simp)
  rcases List.mem_cons.1 (getLastD_mem_cons v (outputs id (1 - c) c v xs)) with h | h
  · rw [h]; exact hv
  · exact outputs_bounded c h0 h1 lo hi xs v hv.1 hv.2 (fun y hy => hx y (by simp [hy])) _ h

/-- With exact arithmetic and a coefficient between 0 and 1 the value of the filter lies between the extremes of what was
put in, the initial value included. -/
theorem C42_bounded (c : ℚ) (h0 : 0 ≤ c) (h1 : c ≤ 1) (p : Bool) (lo hi v : ℚ) (xs : List ℚ)
    (hx : ∀ x ∈ v :: xs, lo ≤ x ∧ x ≤ hi) : lo ≤ ((Filt.init c v p).run id xs).lastval ∧
    ((Filt.init c v p).run id xs).lastval ≤ hi := by
  rw [run_last]
  have := bounded_of h0 h1 hx
  cases p <;> exact this

/-- The same for the integer variant. -/
theorem C42_bounded_int (c : ℚ) (h0 : 0 ≤ c) (h1 : c ≤ 1) (p : Bool) (lo hi v : ℚ) (xs : List ℤ)
    (hx : ∀ x ∈ v :: xs.map (↑), lo ≤ x ∧ x ≤ hi) : lo ≤ ((Filt.init c v p).runInt id xs).lastval ∧
    ((Filt.init c v p).runInt id xs).lastval ≤ hi := by
  rw [runInt_last]
  have := bounded_of h0 h1 hx
  cases p <;> exact this

example : ((Filt.init (1/4) 2 true).run id [10, 4]).lastval = 5 := by decide +kernel

/-- The filter follows its input: fed the same sample over and over, its distance to that sample shrinks by the
coefficient each time. -/
theorem C42_follows (c x : ℚ) : ∀ (n : ℕ) (f : Filt), f.a = 1 - c → f.b = c →
    (f.run id (List.replicate n x)).lastval - x = c ^ n * (f.lastval - x)
  | 0, f, _, _ => by simp [Filt.run]
  | n + 1, f, ha, hb => by
    have e : (f.apply id x).a = f.a ∧ (f.apply id x).b = f.b ∧ (f.apply id x).lastval = f.next id x := by
      unfold Filt.apply
      simp only
      split
      · split <;> split <;> simp_all
      · simp
    have := C42_follows c x n (f.apply id x) (by rw [e.1, ha]) (by rw [e.2.1, hb])
    simp only [List.replicate_succ, Filt.run]
    rw [this, e.2.2, Filt.next, ha, hb]
    simp only [id]
    ring

/-! ## C43 -/

/-- What is needed of floating point rounding: it keeps the order, and integers up to 2^53 are exact. -/
structure Rounds (rn : ℚ → ℚ) : Prop where
  mono : ∀ x y, x ≤ y → rn x ≤ rn y
  int : ∀ n : ℤ, 0 ≤ n → n ≤ 2 ^ 53 → rn n = n

theorem id_rounds : Rounds id := ⟨fun _ _ h => h, fun _ _ _ => rfl⟩

/-- The value rounded and then brought to an integer is one of the two integers next to it. -/
theorem cround_rn {rn : ℚ → ℚ} (h : Rounds rn) {x : ℚ} {n : ℤ} (h0 : 0 ≤ n) (h1 : n + 1 ≤ 2 ^ 53) (a : (n : ℚ) ≤ x)
    (b : x < n + 1) : n ≤ cround (rn x) ∧ cround (rn x) ≤ n + 1 ∧ (x = n → cround (rn x) = n) := by
  have e0 := h.int n h0 (by omega)
  have e1 := h.int (n + 1) (by omega) h1
  have l : (n : ℚ) ≤ rn x := by rw [← e0]; exact h.mono _ _ a
  have u : rn x ≤ (n : ℚ) + 1 := by
    have : rn x ≤ rn ((n + 1 : ℤ) : ℚ) := h.mono _ _ (by push_cast; exact le_of_lt b)
    rw [e1] at this; push_cast at this; exact this
  unfold cround
  refine ⟨?_, ?_, ?_⟩
  · rw [Int.le_floor]; linarith
  · have : ⌊rn x + 1 / 2⌋ < n + 2 := by rw [Int.floor_lt]; push_cast; linarith
    omega
  · intro hx
    rw [hx, e0]
    rw [Int.floor_eq_iff]
    constructor <;> linarith

/-- The time a pair stands for, in units of the fraction. -/
def Tm.units (t : Tm) (unit : ℤ) : ℚ := (t.sec : ℚ) * unit + t.frac

theorem split_units (d : ℚ) (unit : ℤ) (hu : 0 < unit) :
    0 ≤ (unit : ℚ) * (d - ⌊d⌋) ∧ (unit : ℚ) * (d - ⌊d⌋) < unit := by
  have f0 := Int.floor_le d
  have f1 := Int.lt_floor_add_one d
  have hq : (0 : ℚ) < unit := by exact_mod_cast hu
  constructor
  · apply mul_nonneg (le_of_lt hq); linarith
  · have : d - ⌊d⌋ < 1 := by linarith
    nlinarith

theorem frac_near (rn : ℚ → ℚ) (h : Rounds rn) (d : ℚ) (unit : ℤ) (hu : 0 < unit) (hm : unit ≤ 2 ^ 53) :
    0 ≤ cround (rn (unit * (d - ⌊d⌋))) ∧ cround (rn (unit * (d - ⌊d⌋))) ≤ unit ∧
    |(cround (rn (unit * (d - ⌊d⌋))) : ℚ) - unit * (d - ⌊d⌋)| < 1 := by
  obtain ⟨x0, x1⟩ := split_units d unit hu
  generalize (unit : ℚ) * (d - ⌊d⌋) = x at x0 x1
  have n0 : 0 ≤ ⌊x⌋ := Int.floor_nonneg.2 x0
  have n1 : ⌊x⌋ < unit := by rw [Int.floor_lt]; exact x1
  obtain ⟨c1, c2, c3⟩ := cround_rn h n0 (by omega) (Int.floor_le x) (Int.lt_floor_add_one x)
  refine ⟨by omega, by omega, ?_⟩
  have f0 := Int.floor_le x
  have f1 := Int.lt_floor_add_one x
  have q1 : (⌊x⌋ : ℚ) ≤ cround (rn x) := by exact_mod_cast c1
  have q2 : (cround (rn x) : ℚ) ≤ ⌊x⌋ + 1 := by exact_mod_cast c2
  by_cases he : x = ⌊x⌋
  · rw [c3 he, ← he]; simp
  · have f2 : (⌊x⌋ : ℚ) < x := lt_of_le_of_ne f0 (Ne.symm he)
    rw [abs_lt]; constructor <;> linarith

/-- Seconds and microseconds: normalised, and within one microsecond of the time. -/
theorem C43_timeval (rn : ℚ → ℚ) (h : Rounds rn) (d : ℚ) (_hd : 0 ≤ d) :
    0 ≤ (timeval rn d).frac ∧ (timeval rn d).frac < 1000000 ∧ |(timeval rn d).units 1000000 - 1000000 * d| < 1 := by
  obtain ⟨a, b, c⟩ := frac_near rn h d 1000000 (by norm_num) (by norm_num)
  unfold timeval
  push_cast at a b c
  simp only
  split
  · rename_i he
    rw [he] at c
    refine ⟨by norm_num, by norm_num, ?_⟩
    simp only [Tm.units]
    push_cast at c ⊢
    rw [abs_lt] at c ⊢
    constructor <;> linarith [c.1, c.2]
  · rename_i he
    refine ⟨a, by change cround _ < _; omega, ?_⟩
    simp only [Tm.units]
    push_cast at c ⊢
    rw [abs_lt] at c ⊢
    constructor <;> linarith [c.1, c.2]

/-- Seconds and nanoseconds: within one nanosecond of the time; normalised unless the last half nanosecond of a second is
rounded up. -/
theorem C43_mtimespec_partial (rn : ℚ → ℚ) (h : Rounds rn) (d : ℚ) (_hd : 0 ≤ d) :
    0 ≤ (mtimespec rn d).frac ∧ (mtimespec rn d).frac ≤ 1000000000 ∧
    |(mtimespec rn d).units 1000000000 - 1000000000 * d| < 1 ∧
    (d - ⌊d⌋ ≤ 999999999 / 1000000000 → (mtimespec rn d).frac < 1000000000) := by
  obtain ⟨a, b, c⟩ := frac_near rn h d 1000000000 (by norm_num) (by norm_num)
  unfold mtimespec
  push_cast at a b c
  simp only
  refine ⟨a, b, ?_, ?_⟩
  · simp only [Tm.units]
    push_cast at c ⊢
    rw [abs_lt] at c ⊢
    constructor <;> linarith [c.1, c.2]
  · intro hf
    obtain ⟨x0, x1⟩ := split_units d 1000000000 (by norm_num)
    push_cast at x0 x1
    have hle : (1000000000 : ℚ) * (d - ⌊d⌋) ≤ ((999999999 : ℤ) : ℚ) := by push_cast; linarith
    have hr := h.mono _ _ hle
    rw [h.int 999999999 (by norm_num) (by norm_num)] at hr
    have : cround (rn (1000000000 * (d - ⌊d⌋))) ≤ 999999999 := by
      unfold cround
      have : ⌊rn (1000000000 * (d - ⌊d⌋)) + 1 / 2⌋ < 1000000000 := by
        rw [Int.floor_lt]; push_cast at hr ⊢; linarith
      omega
    omega

/-- A time with a fraction of 2^33 - 1 parts in 2^33 (exact in floating point) becomes a whole 10^9 nanoseconds, which
is not a valid `struct timespec`. -/
theorem C43_mtimespec_counterexample : (mtimespec id ((2 ^ 33 - 1) / 2 ^ 33)).frac = 1000000000 := by decide +kernel

example : (timeval id ((2 ^ 33 - 1) / 2 ^ 33)) = ⟨1, 0⟩ := by decide +kernel
example : (mtimespec id (7 / 2)) = ⟨3, 500000000⟩ := by decide +kernel

end Verif.Num
