import Mathlib.Algebra.BigOperators.Intervals
import Mathlib.Algebra.Order.BigOperators.Group.Finset
import Mathlib.Algebra.BigOperators.Ring.Finset
import Mathlib.Tactic.Ring
import Mathlib.Tactic.Linarith

/-!
# Counting multiples near an arithmetic progression

`#{i < n : (a i + b) mod m < w}` for huge `n`, computed with the number of steps of Euclid's
algorithm: the count is a difference of two sums of the form `Σ_{i<n} ⌊(a i + b) / m⌋`.
-/

namespace Floaxie

open Finset

/-- The reciprocity step. -/
theorem floorSum_flip (n m a b : Nat) (hm : 0 < m) (ha : 0 < a) (hb : b < m) :
    ∑ i ∈ range n, (a * i + b) / m =
      ∑ j ∈ range ((a * n + b) / m), (m * j + (a * n + b) % m) / a := by
  set Y := (a * n + b) / m with hY
  set r := (a * n + b) % m with hr
  have hYr : m * Y + r = a * n + b := Nat.div_add_mod _ _
  have h1 : ∀ i ∈ range n, (a * i + b) / m = ∑ j ∈ range Y, if m * (j + 1) ≤ a * i + b then 1 else 0 := by
    intro i hi
    rw [mem_range] at hi
    rw [← card_filter]
    have : (range Y).filter (fun j => m * (j + 1) ≤ a * i + b) = range ((a * i + b) / m) := by
      ext j
      simp only [mem_filter, mem_range]
      have e : j < (a * i + b) / m ↔ m * (j + 1) ≤ a * i + b := by
        rw [← Nat.succ_le_iff, Nat.le_div_iff_mul_le hm, mul_comm]
      have : (a * i + b) / m ≤ Y := Nat.div_le_div_right (by
        have := Nat.mul_le_mul_left a hi.le; omega)
      rw [e]
      constructor
      · exact fun h => h.2
      · intro h; exact ⟨by rw [← e] at h; omega, h⟩
    rw [this, card_range]
  have h2 : ∀ j ∈ range Y, (m * j + r) / a = ∑ i ∈ range n, if a * (i + 1) ≤ m * j + r then 1 else 0 := by
    intro j hj
    rw [mem_range] at hj
    rw [← card_filter]
    have : (range n).filter (fun i => a * (i + 1) ≤ m * j + r) = range ((m * j + r) / a) := by
      ext i
      simp only [mem_filter, mem_range]
      have e : i < (m * j + r) / a ↔ a * (i + 1) ≤ m * j + r := by
        rw [← Nat.succ_le_iff, Nat.le_div_iff_mul_le ha, mul_comm]
      have : (m * j + r) / a ≤ n := by
        have h3 : m * (j + 1) ≤ m * Y := Nat.mul_le_mul_left m hj
        rw [mul_add, mul_one] at h3
        calc (m * j + r) / a ≤ (a * n) / a := Nat.div_le_div_right (by omega)
          _ = n := Nat.mul_div_cancel_left _ ha
      rw [e]
      constructor
      · exact fun h => h.2
      · intro h; exact ⟨by rw [← e] at h; omega, h⟩
    rw [this, card_range]
  rw [sum_congr rfl h1, sum_congr rfl h2, sum_comm,
    ← sum_range_reflect (fun j => ∑ i ∈ range n, if a * (i + 1) ≤ m * j + r then 1 else 0)]
  apply sum_congr rfl
  intro j hj
  rw [mem_range] at hj
  rw [← sum_range_reflect (fun i => if a * (i + 1) ≤ m * (Y - 1 - j) + r then 1 else 0)]
  apply sum_congr rfl
  intro i hi
  rw [mem_range] at hi
  have hj' : m * (Y - 1 - j) + m * (j + 1) = m * Y := by
    rw [← mul_add]; congr 1; omega
  have hi' : a * (n - 1 - i + 1) + a * i = a * n := by
    rw [← mul_add]; congr 1; omega
  congr 1
  apply propext
  omega

/-- Evaluate the argument first (for the kernel's evaluator). -/
def force {α : Sort*} (x : Nat) (f : Nat → α) : α :=
  match x with
  | 0 => f 0
  | k + 1 => f (k + 1)

theorem force_eq {α : Sort*} (x : Nat) (f : Nat → α) : force x f = f x := by
  cases x <;> rfl

/-- `Σ_{i<n} ⌊(a i + b) / m⌋` in at most `fuel` steps of Euclid's algorithm. -/
def floorSum : (fuel n m a b acc : Nat) → Option Nat
  | 0, _, _, _, _, _ => none
  | fuel + 1, n, m, a, b, acc =>
    force (acc + n * (n - 1) / 2 * (a / m) + n * (b / m)) fun acc =>
    force (a % m) fun a => force (b % m) fun b =>
    force ((a * n + b) / m) fun Y =>
    force ((a * n + b) % m) fun r =>
    match Y with
    | 0 => some acc
    | Y + 1 => floorSum fuel (Y + 1) a m r acc

theorem floorSum_eq (fuel n m a b acc s : Nat) (hm : 0 < m)
    (h : floorSum fuel n m a b acc = some s) :
    s = acc + ∑ i ∈ range n, (a * i + b) / m := by
  induction fuel generalizing n m a b acc with
  | zero => simp [floorSum] at h
  | succ fuel ih =>
    have hs : ∑ i ∈ range n, (a * i + b) / m =
        n * (n - 1) / 2 * (a / m) + n * (b / m) + ∑ i ∈ range n, (a % m * i + b % m) / m := by
      have e : ∀ i ∈ range n, (a * i + b) / m = i * (a / m) + b / m + (a % m * i + b % m) / m := by
        intro i _
        have h1 : a * i + b = (a % m * i + b % m) + m * (i * (a / m) + b / m) := by
          conv_lhs => rw [← Nat.div_add_mod a m, ← Nat.div_add_mod b m]
          ring
        rw [h1, Nat.add_mul_div_left _ _ hm]
        ring
      rw [sum_congr rfl e, sum_add_distrib, sum_add_distrib, ← sum_mul, sum_range_id]
      simp
    unfold floorSum at h
    simp only [force_eq] at h
    have hbm : b % m < m := Nat.mod_lt _ hm
    rw [hs]
    generalize a % m = a' at *
    generalize b % m = b' at *
    cases hY : (a' * n + b') / m with
    | zero =>
      rw [hY] at h
      simp only [Option.some.injEq] at h
      have hz : ∑ i ∈ range n, (a' * i + b') / m = 0 := by
        apply sum_eq_zero
        intro i hi
        rw [mem_range] at hi
        have : (a' * i + b') / m ≤ (a' * n + b') / m := Nat.div_le_div_right (by
          have := Nat.mul_le_mul_left a' hi.le; omega)
        rw [hY] at this
        exact Nat.le_zero.mp this
      rw [hz]; omega
    | succ Y =>
      rw [hY] at h
      simp only at h
      have ha : 0 < a' := by
        rcases Nat.eq_zero_or_pos a' with rfl | h'
        · rw [zero_mul, zero_add, Nat.div_eq_of_lt hbm] at hY; omega
        · exact h'
      have := ih _ _ _ _ _ ha h
      rw [this, floorSum_flip n m a' b' hm ha hbm, hY]
      omega

/-- The number of `i < n` with `(a i + b) mod m < w`. -/
def countMod (fuel n m a b w : Nat) : Option Nat :=
  match floorSum fuel n m a (b + m) 0, floorSum fuel n m a (b + m - w) 0 with
  | some x, some y => some (x - y)
  | _, _ => none

theorem mod_lt_indicator (x m w : Nat) (hm : 0 < m) (hw : w ≤ m) :
    (x + m) / m = (x + m - w) / m + if x % m < w then 1 else 0 := by
  have h := Nat.div_add_mod x m
  have hl := Nat.mod_lt x hm
  rw [Nat.add_div_right _ hm]
  generalize x % m = r at *
  generalize x / m = q at *
  have e : x + m - w = r + (m - w) + m * q := by omega
  rw [e, Nat.add_mul_div_left _ _ hm]
  split_ifs with hr
  · rw [Nat.div_eq_of_lt (by omega)]; omega
  · have : (r + (m - w)) / m = 1 := by
      rw [Nat.div_eq_iff hm]; omega
    omega

theorem countMod_eq (fuel n m a b w c : Nat) (hm : 0 < m) (hw : w ≤ m)
    (h : countMod fuel n m a b w = some c) :
    c = ((range n).filter (fun i => (a * i + b) % m < w)).card := by
  unfold countMod at h
  cases hx : floorSum fuel n m a (b + m) 0 with
  | none => rw [hx] at h; simp at h
  | some x =>
    cases hy : floorSum fuel n m a (b + m - w) 0 with
    | none => rw [hx, hy] at h; simp at h
    | some y =>
      rw [hx, hy] at h
      simp only [Option.some.injEq] at h
      have h1 := floorSum_eq _ _ _ _ _ _ _ hm hx
      have h2 := floorSum_eq _ _ _ _ _ _ _ hm hy
      rw [card_filter]
      have e : ∑ i ∈ range n, (a * i + (b + m)) / m =
          ∑ i ∈ range n, (a * i + (b + m - w)) / m + ∑ i ∈ range n, if (a * i + b) % m < w then 1 else 0 := by
        rw [← sum_add_distrib]
        apply sum_congr rfl
        intro i _
        have := mod_lt_indicator (a * i + b) m w hm hw
        rw [show a * i + (b + m) = a * i + b + m by ring, this]
        congr 2
        omega
      omega

end Floaxie
