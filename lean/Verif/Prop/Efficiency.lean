import Verif.Proof.BlockDoubleA
import Verif.Proof.BlockDoubleB
import Verif.Prop.OneDigit
import Verif.Prop.Amount
import Verif.Prop.Shortest

/-!
# How often the text is the shortest possible one (C90)

README.md, "Printing": Grisu2 "guarantees the best possible efficiency of more, than 99%".
Proved here for the model: of all finite `float` values more than 99%, of all finite `double`
values more than 99.88% are printed with the least number of significant digits that any
decimal number rounding to the value can have.
-/

namespace Floaxie

open FloatType Spec

/-- The text printed for a value has the least number of significant digits: every decimal
number `± d * 10^j` that rounds to the value has at least as many (`d` has at least as many
digits as the significand of the text). -/
def PrintedShortest (T : FloatType) (bits : Nat) : Prop :=
  ∃ (n : Numeral) (ds : List (Fin 10)) (k : Int), Prints T bits n.text ∧ SignificantDigits n ds k ∧
    ∀ (x : ℚ) (d : Nat) (j : Int), |x| = d * 10 ^ j → RoundsTo T x bits → 10 ^ (ds.length - 1) ≤ d

/-- A magnitude one of whose two signs is not printed shortest. -/
def Long (T : FloatType) (a : Nat) : Prop :=
  ∃ bits, bits < 2 ^ T.W ∧ absPat T bits = a ∧ ¬ PrintedShortest T bits

/-- The two ways to look at a block of values with the same exponent. -/
structure Block (T : FloatType) (t st lo : Nat) : Prop where
  half : T.W / 2 ≤ t
  top : t < T.p
  sig : ∀ i, i < 2 ^ t → sigN T (lo + i) = 2 ^ t + i
  exp : ∀ i, i < 2 ^ t → (lo + i) / 2 ^ (T.p - 1) - 1 = st
  big : 2 ^ t ≤ lo
  fin : lo + 2 ^ t ≤ posInf T
  even : lo % 2 = 0

theorem block_J {W t f J : Nat} (h1 : 2 ^ (W - 1) ≤ (2 * f + 1) * 2 ^ J) (h2 : (2 * f + 1) * 2 ^ J < 2 ^ W)
    (hf1 : 2 ^ t ≤ f) (hf2 : f < 2 ^ (t + 1)) : J = W - 2 - t := by
  have a1 : 2 ^ (t + 1 + J) ≤ (2 * f + 1) * 2 ^ J := by
    rw [pow_add]; exact Nat.mul_le_mul_right _ (by rw [pow_succ]; omega)
  have a2 : (2 * f + 1) * 2 ^ J < 2 ^ (t + 2 + J) := by
    rw [pow_add]; exact Nat.mul_lt_mul_of_pos_right (by rw [pow_succ]; omega) (by positivity)
  have b1 := (Nat.pow_lt_pow_iff_right (by norm_num : 1 < 2)).mp (lt_of_le_of_lt a1 h2)
  have b2 := (Nat.pow_lt_pow_iff_right (by norm_num : 1 < 2)).mp (lt_of_le_of_lt h1 a2)
  omega

/-- A value that is not printed shortest is near. -/
theorem near_of_long {T : FloatType} {t st lo n : Nat} (hB : Block T t st lo)
    (hc : blockCount T (packF T) (packE T) t st = some n) :
    ∃ (J m u P Q : Nat), 0 < m ∧ 0 < u ∧ 0 < P ∧ 0 < Q ∧ (P + Q) * u ≤ m ∧
      n = ((Finset.range (2 ^ t)).filter (fun i =>
        (2 ^ (J + 21) * u * i + ((2 ^ (t + 1) + 1) * 2 ^ (J + 20) * u + (Q * u - 1))) % m <
          (P + Q) * u - 1)).card ∧
      ∀ i, i ≠ 0 → i < 2 ^ t → Long T (lo + i) →
        NearUpper m u J P (2 ^ t + i) ∨ NearLower m u J Q (2 ^ t + i) := by
  obtain ⟨J, E, κ, m, u, P, Q, hJ, hE, hpow, hm, hu, hP, hQ, hmu, q1, q2, q3, hn⟩ := blockCount_spec hc
  refine ⟨J, m, u, P, Q, hm, hu, hP, hQ, q3, hn, ?_⟩
  rintro i hi0 hi ⟨bits, hb, hab, hns⟩
  set a := lo + i with ha
  have hsig := hB.sig i hi
  have hexp := hB.exp i hi
  have hpos : 0 < 2 ^ t := by positivity
  have hafin : a < posInf T := by have := hB.fin; omega
  have h2 : 2 ^ (t + 1) = 2 * 2 ^ t := by rw [pow_succ]; ring
  have hne : sigN T a ≠ 2 ^ (T.p - 1) := by
    rw [hsig]
    intro h
    rcases Nat.lt_or_ge t (T.p - 1) with hlt | hge
    · have h3 : 2 ^ (t + 1) ≤ 2 ^ (T.p - 1) := Nat.pow_le_pow_right (by norm_num) hlt
      omega
    · have : t = T.p - 1 := by have := hB.top; omega
      rw [this] at h; omega
  have hhalf : 2 ^ (T.W / 2) ≤ a := by
    have := Nat.pow_le_pow_right (show 0 < 2 by norm_num) hB.half
    have := hB.big
    omega
  obtain ⟨ds, k, b1, ⟨hds, hh, hl⟩, b4, b5, J', E', c, hE', hJ1, hJ2, hcp, key⟩ := sliver T a hafin hhalf hne
  rw [hsig] at hJ1 hJ2 key
  rw [hexp] at hE'
  have hJJ : J' = J := by rw [hJ]; exact block_J hJ1 hJ2 (by omega) (by omega)
  subst hJJ
  have hEE : E' = E := by rw [hE, hE']
  subst hEE
  obtain ⟨p1, p2, p3, p4⟩ := hpow c hcp
  have hEp : (0 : ℚ) < 2 ^ E' := by positivity
  have huq : (0 : ℚ) < u := by exact_mod_cast hu
  -- comparison in integers
  have conv : ∀ (x n : ℚ), x * 2 ^ E' * (2 ^ 20 * u) = x * 2 ^ 20 * u * 2 ^ E' ∧
      n * 10 ^ κ * (2 ^ 20 * u) = n * m * 2 ^ E' := by
    intro x n
    refine ⟨by ring, ?_⟩
    calc n * 10 ^ κ * (2 ^ 20 * u) = n * (10 ^ κ * 2 ^ 20 * u) := by ring
      _ = n * m * 2 ^ E' := by rw [← hmu]; ring
  have hsc : (0 : ℚ) < 2 ^ 20 * u := by positivity
  have lt1 : ∀ x n : ℚ, x * 2 ^ E' < n * 10 ^ κ ↔ x * 2 ^ 20 * u < n * m := by
    intro x n
    rw [← mul_lt_mul_iff_of_pos_right hsc, (conv x n).1, (conv x n).2, mul_lt_mul_iff_of_pos_right hEp]
  have lt2 : ∀ x n : ℚ, n * 10 ^ κ < x * 2 ^ E' ↔ n * m < x * 2 ^ 20 * u := by
    intro x n
    rw [← mul_lt_mul_iff_of_pos_right hsc, (conv x n).1, (conv x n).2, mul_lt_mul_iff_of_pos_right hEp]
  have eq1 : ∀ x n : ℚ, x * 2 ^ E' = n * 10 ^ κ ↔ x * 2 ^ 20 * u = n * m := by
    intro x n
    rw [← mul_left_inj' hsc.ne', (conv x n).1, (conv x n).2, mul_left_inj' hEp.ne']
  have eq2 : ∀ x n : ℚ, n * 10 ^ κ = x * 2 ^ E' ↔ n * m = x * 2 ^ 20 * u := by
    intro x n
    rw [← mul_left_inj' hsc.ne', (conv x n).1, (conv x n).2, mul_left_inj' hEp.ne']
  have hlong : (10 : ℚ) ^ κ ≤ 10 * ((2 ^ (J' + 1) - P / 2 ^ 20 - Q / 2 ^ 20) * 2 ^ E') := by
    have e : ((m : Nat) : ℚ) ≤ 10 * (2 ^ (J' + 21) - P - Q) * u := by
      have h4 : ((2 ^ (J' + 21) - P - Q : Nat) : ℚ) = 2 ^ (J' + 21) - P - Q := by
        rw [Nat.sub_sub, Nat.cast_sub q1]; push_cast; ring
      rw [← h4]; exact_mod_cast q2
    have e2 := mul_le_mul_of_nonneg_right e hEp.le
    rw [hmu] at e2
    have e3 : (10 : ℚ) ^ κ * (2 ^ 20 * u) ≤
        10 * ((2 ^ (J' + 1) - P / 2 ^ 20 - Q / 2 ^ 20) * 2 ^ E') * (2 ^ 20 * u) := by
      calc (10 : ℚ) ^ κ * (2 ^ 20 * u) = 10 ^ κ * 2 ^ 20 * u := by ring
        _ ≤ _ := e2
        _ = _ := by rw [show J' + 21 = J' + 1 + 20 by omega, pow_add (2 : ℚ) (J' + 1) 20]; ring
    exact le_of_mul_le_mul_right e3 hsc
  -- a shorter number
  have hsd : SignificantDigits (fmtNumeral (decide (signBit T bits = 1)) ds k) ds k := by
    refine ⟨hds, ?_, ?_, fmt_digits _ ds k hds, fmt_absValue _ ds k hds (fmtK b1 hds b4)⟩
    · rw [List.head?_eq_some_head hds]; simpa using hh
    · rw [List.getLast?_eq_some_getLast hds]; simpa using hl
  have hex : ∃ (x : ℚ) (d : Nat) (j : Int), |x| = d * 10 ^ j ∧ RoundsTo T x bits ∧ d < 10 ^ (ds.length - 1) := by
    by_contra hno
    apply hns
    refine ⟨_, ds, k, b5 bits hb hab, hsd, ?_⟩
    intro x d j hx hr
    by_contra hd
    exact hno ⟨x, d, j, hx, hr, not_le.mp hd⟩
  obtain ⟨x, d, j, hx, hr, hd⟩ := hex
  have hx0 : x ≠ 0 := by
    rintro rfl
    have h5 := hr.2.2.2 0 (isFinite_of_lt (posInf_pos T)) (by
      rw [value_zero_iff.mpr (by simp [absPat])]
      intro h
      have := value_zero_iff.mp h.symm
      omega)
    rw [value_zero_iff.mpr (show absPat T 0 = 0 by simp [absPat])] at h5
    simp only [zero_sub, abs_neg, sub_zero, abs_zero] at h5
    have h6 : value T bits ≠ 0 := by rw [Ne, value_zero_iff]; omega
    have := abs_pos.mpr h6
    rcases h5 with h5 | h5 <;> linarith [h5]
  have hr' := roundsTo_magnitude hx0 hr
  rw [hx, hab] at hr'
  have hpar : a % 2 = 0 → (2 ^ t + i) % 2 = 0 := by
    intro h
    have := hB.even
    have h2t : 2 ^ t % 2 = 0 := by
      have : 0 < t := by have := hB.half; revert this; cases T <;> simp only [FloatType.W] <;> omega
      obtain ⟨t', rfl⟩ : ∃ t', t = t' + 1 := ⟨t - 1, by omega⟩
      rw [pow_succ]; omega
    omega
  rcases key _ _ κ d j p1 p2 p3 p4 hlong hr' hd with ⟨n, n1, n2⟩ | ⟨n, n1, n2⟩
  · left
    rw [lt1] at n1
    rw [lt2, eq2] at n2
    refine ⟨n, ?_, ?_⟩
    · have : (((2 * (2 ^ t + i) + 1) * 2 ^ (J' + 20) * u : Nat) : ℚ) < ((n * m + P * u : Nat) : ℚ) := by
        push_cast
        push_cast at n1
        rw [pow_add]
        have e : (((2 * (2 ^ t + i) + 1) * 2 ^ J' - (P : ℚ) / 2 ^ 20) * 2 ^ 20 * u : ℚ) =
          (2 * (2 ^ t + i) + 1) * (2 ^ J' * 2 ^ 20) * u - P * u := by ring
        rw [e] at n1
        linarith
      exact_mod_cast this
    · rcases n2 with n2 | ⟨n2, n3⟩
      · left
        have : ((n * m : Nat) : ℚ) < (((2 * (2 ^ t + i) + 1) * 2 ^ (J' + 20) * u : Nat) : ℚ) := by
          push_cast
          push_cast at n2
          rw [pow_add]
          linarith
        exact_mod_cast this
      · right
        refine ⟨?_, hpar n3⟩
        have : ((n * m : Nat) : ℚ) = (((2 * (2 ^ t + i) + 1) * 2 ^ (J' + 20) * u : Nat) : ℚ) := by
          push_cast
          push_cast at n2
          rw [pow_add]
          linarith
        exact_mod_cast this
  · right
    rw [lt2] at n1
    rw [lt1, eq1] at n2
    have hcast : (((2 * (2 ^ t + i) - 1) * 2 ^ (J' + 20) * u : Nat) : ℚ) =
        (2 * ((2 ^ t + i : Nat) : ℚ) - 1) * 2 ^ J' * 2 ^ 20 * u := by
      rw [Nat.cast_mul, Nat.cast_mul, Nat.cast_sub (by omega), pow_add]
      push_cast
      ring
    refine ⟨n, ?_, ?_⟩
    · have : ((n * m : Nat) : ℚ) < (((2 * (2 ^ t + i) - 1) * 2 ^ (J' + 20) * u + Q * u : Nat) : ℚ) := by
        rw [Nat.cast_add, hcast, Nat.cast_mul, Nat.cast_mul]
        have e : (((2 * ((2 ^ t + i : Nat) : ℚ) - 1) * 2 ^ J' + (Q : ℚ) / 2 ^ 20) * 2 ^ 20 * u : ℚ) =
          (2 * ((2 ^ t + i : Nat) : ℚ) - 1) * 2 ^ J' * 2 ^ 20 * u + Q * u := by ring
        rw [e] at n1
        exact n1
      exact_mod_cast this
    · rcases n2 with n2 | ⟨n2, n3⟩
      · left
        have : (((2 * (2 ^ t + i) - 1) * 2 ^ (J' + 20) * u : Nat) : ℚ) < ((n * m : Nat) : ℚ) := by
          rw [hcast, Nat.cast_mul]; exact n2
        exact_mod_cast this
      · right
        refine ⟨?_, hpar n3⟩
        have : (((2 * (2 ^ t + i) - 1) * 2 ^ (J' + 20) * u : Nat) : ℚ) = ((n * m : Nat) : ℚ) := by
          rw [hcast, Nat.cast_mul]; exact n2
        exact_mod_cast this

open Classical in
/-- How many of `lo, .., lo + len - 1` are not printed shortest. -/
noncomputable def longCount (T : FloatType) (lo len : Nat) : Nat :=
  ((Finset.range len).filter (fun i => Long T (lo + i))).card

theorem longCount_le (T : FloatType) (lo len : Nat) : longCount T lo len ≤ len := by
  classical
  unfold longCount
  exact (Finset.card_filter_le _ _).trans (by rw [Finset.card_range])

theorem longCount_add (T : FloatType) (lo l1 l2 : Nat) :
    longCount T lo (l1 + l2) = longCount T lo l1 + longCount T (lo + l1) l2 := by
  classical
  unfold longCount
  rw [Finset.card_filter, Finset.card_filter, Finset.card_filter, Finset.sum_range_add]
  simp only [add_assoc]

theorem longCount_block {T : FloatType} {t st lo n : Nat} (hB : Block T t st lo)
    (hc : blockCount T (packF T) (packE T) t st = some n) : longCount T lo (2 ^ t) ≤ n + 1 := by
  classical
  obtain ⟨J, m, u, P, Q, hm, hu, hP, hQ, hPQ, hn, hnear⟩ := near_of_long hB hc
  have h := near_card t m u J P Q hm hu hP hQ hPQ
  rw [← hn] at h
  unfold longCount
  calc ((Finset.range (2 ^ t)).filter (fun i => Long T (lo + i))).card
      ≤ (insert 0 (((Finset.range (2 ^ t)).filter (fun i => i ≠ 0 ∧ Long T (lo + i))))).card := by
        apply Finset.card_le_card
        intro i hi
        rw [Finset.mem_filter] at hi
        rw [Finset.mem_insert, Finset.mem_filter]
        by_cases h0 : i = 0
        · exact Or.inl h0
        · exact Or.inr ⟨hi.1, h0, hi.2⟩
    _ ≤ ((Finset.range (2 ^ t)).filter (fun i => i ≠ 0 ∧ Long T (lo + i))).card + 1 := Finset.card_insert_le _ _
    _ ≤ n + 1 := by
        refine Nat.add_le_add_right (le_trans ?_ h) 1
        apply Finset.card_le_card_of_injOn (fun i => 2 ^ t + i)
        · intro i hi
          simp only [Finset.coe_filter, Set.mem_ofPred_eq, Finset.mem_range] at hi ⊢
          have h2 : 2 ^ (t + 1) = 2 * 2 ^ t := by rw [pow_succ]; ring
          exact ⟨by omega, by omega, hnear i hi.2.1 hi.1 hi.2.2⟩
        · intro i _ j _ h
          simp only at h
          omega

/-- A block of normal numbers. -/
theorem block_normal (T : FloatType) (st : Nat) (h : st + 2 ≤ expMax T) :
    Block T (T.p - 1) st (2 ^ (T.p - 1) * (st + 1)) := by
  have hp : 0 < 2 ^ (T.p - 1) := by positivity
  have hdiv : ∀ i, i < 2 ^ (T.p - 1) → (2 ^ (T.p - 1) * (st + 1) + i) / 2 ^ (T.p - 1) = st + 1 := by
    intro i hi
    rw [Nat.mul_add_div hp, Nat.div_eq_of_lt hi, Nat.add_zero]
  refine ⟨by cases T <;> decide, by cases T <;> decide, ?_, ?_, ?_, ?_, ?_⟩
  · intro i hi
    unfold sigN
    rw [hdiv i hi, if_neg (by omega), Nat.mul_add_mod, Nat.mod_eq_of_lt hi]
  · intro i hi
    rw [hdiv i hi]; rfl
  · exact Nat.le_mul_of_pos_right _ (by omega)
  · have : posInf T = 2 ^ (T.p - 1) * expMax T := by cases T <;> decide
    rw [this]
    calc 2 ^ (T.p - 1) * (st + 1) + 2 ^ (T.p - 1) = 2 ^ (T.p - 1) * (st + 2) := by ring
      _ ≤ _ := Nat.mul_le_mul_left _ h
  · have : 2 ^ (T.p - 1) % 2 = 0 := by cases T <;> decide
    rw [Nat.mul_mod, this, Nat.zero_mul, Nat.zero_mod]

/-- A block of subnormal numbers. -/
theorem block_subnormal (T : FloatType) (t : Nat) (h1 : T.W / 2 ≤ t) (h2 : t < T.p - 1) :
    Block T t 0 (2 ^ t) := by
  have h3 : 2 ^ (t + 1) ≤ 2 ^ (T.p - 1) := Nat.pow_le_pow_right (by norm_num) h2
  have h4 : 2 ^ (t + 1) = 2 * 2 ^ t := by rw [pow_succ]; ring
  have hdiv : ∀ i, i < 2 ^ t → (2 ^ t + i) / 2 ^ (T.p - 1) = 0 := fun i hi => Nat.div_eq_of_lt (by omega)
  refine ⟨h1, by omega, ?_, ?_, le_rfl, ?_, ?_⟩
  · intro i hi
    unfold sigN
    rw [hdiv i hi, if_pos rfl, Nat.mod_eq_of_lt (by omega)]
  · intro i hi
    rw [hdiv i hi]
  · have : 2 ^ (T.p - 1) ≤ posInf T := by cases T <;> decide
    omega
  · have : 0 < t := by revert h1; cases T <;> simp only [FloatType.W] <;> omega
    obtain ⟨t', rfl⟩ : ∃ t', t = t' + 1 := ⟨t - 1, by omega⟩
    rw [pow_succ]; omega

theorem longCount_blocks {T : FloatType} {n st acc s : Nat} (hst : st + n + 1 ≤ expMax T)
    (h : blockSum T (packF T) (packE T) (T.p - 1) n st acc = some s) :
    longCount T (2 ^ (T.p - 1) * (st + 1)) (2 ^ (T.p - 1) * n) + acc ≤ s := by
  induction n generalizing st acc with
  | zero =>
    simp only [blockSum, Option.some.injEq] at h
    have := longCount_le T (2 ^ (T.p - 1) * (st + 1)) (2 ^ (T.p - 1) * 0)
    rw [Nat.mul_zero] at this ⊢
    omega
  | succ n ih =>
    simp only [blockSum, force_eq] at h
    cases hc : blockCount T (packF T) (packE T) (T.p - 1) st with
    | none => rw [hc] at h; simp at h
    | some c =>
      rw [hc] at h
      simp only at h
      have h1 := ih (by omega) h
      have h2 := longCount_block (block_normal T st (by omega)) hc
      rw [Nat.mul_add _ n, Nat.mul_one, Nat.add_comm (2 ^ (T.p - 1) * n), longCount_add,
        show 2 ^ (T.p - 1) * (st + 1) + 2 ^ (T.p - 1) = 2 ^ (T.p - 1) * (st + 1 + 1) by ring]
      omega

theorem longCount_normal {T : FloatType} {n st s : Nat} (hst : st + n + 1 ≤ expMax T)
    (h : normalSum T n st = some s) :
    longCount T (2 ^ (T.p - 1) * (st + 1)) (2 ^ (T.p - 1) * n) ≤ s := by
  unfold normalSum at h
  simp only [force_eq] at h
  exact longCount_blocks hst h

/-- The sum over the subnormal numbers of more than half a word of bits. -/
def subnormalSum (T : FloatType) : (n t acc : Nat) → Option Nat
  | 0, _, acc => some acc
  | n + 1, t, acc =>
    match blockCount T (packF T) (packE T) t 0 with
    | none => none
    | some c => subnormalSum T n (t + 1) (acc + c + 1)

theorem longCount_subnormal {T : FloatType} {n t acc s : Nat} (h1 : T.W / 2 ≤ t) (h2 : t + n ≤ T.p - 1)
    (h : subnormalSum T n t acc = some s) : longCount T (2 ^ t) (2 ^ (t + n) - 2 ^ t) + acc ≤ s := by
  induction n generalizing t acc with
  | zero =>
    simp only [subnormalSum, Option.some.injEq] at h
    have := longCount_le T (2 ^ t) (2 ^ (t + 0) - 2 ^ t)
    rw [Nat.add_zero, Nat.sub_self] at this ⊢
    omega
  | succ n ih =>
    simp only [subnormalSum] at h
    cases hc : blockCount T (packF T) (packE T) t 0 with
    | none => rw [hc] at h; simp at h
    | some c =>
      rw [hc] at h
      simp only at h
      have a1 := ih (by omega) (by omega) h
      have a2 := longCount_block (block_subnormal T t h1 (by omega)) hc
      have e1 : 2 ^ (t + 1) = 2 ^ t + 2 ^ t := by rw [pow_succ]; ring
      have e2 : 2 ^ (t + 1) ≤ 2 ^ (t + 1 + n) := Nat.pow_le_pow_right (by norm_num) (by omega)
      have e3 : 2 ^ (t + 1 + n) - 2 ^ t = 2 ^ t + (2 ^ (t + 1 + n) - 2 ^ (t + 1)) := by
        generalize 2 ^ (t + 1 + n) = x at *
        generalize 2 ^ (t + 1) = y at *
        omega
      rw [show t + (n + 1) = t + 1 + n by ring, e3, longCount_add, ← e1]
      omega

theorem float_subnormal : subnormalSum .float 7 16 0 = some 6392 := by decide +kernel
theorem double_subnormal : subnormalSum .double 20 32 0 = some 2194173168282 := by decide +kernel

/-- At most so many magnitudes. -/
def longBound : FloatType → Nat
  | .float => 18808845
  | .double => 10762352593161066

theorem longCount_all (T : FloatType) : longCount T 0 (posInf T) ≤ longBound T := by
  cases T
  · have h1 := longCount_le .float 0 65536
    have h2 := longCount_subnormal (T := .float) (by decide) (by decide) float_subnormal
    have h3 := longCount_normal (T := .float) (by decide) float_sum_0
    have e : posInf .float = 65536 + (2 ^ (16 + 7) - 2 ^ 16 + 2 ^ (FloatType.float.p - 1) * 254) := by decide
    rw [e, longCount_add, longCount_add]
    have e1 : 0 + 65536 = 2 ^ 16 := by norm_num
    have e2 : (2 : Nat) ^ 16 + (2 ^ (16 + 7) - 2 ^ 16) = 2 ^ (FloatType.float.p - 1) * (0 + 1) := by decide
    rw [e1, e2]
    show _ ≤ 18808845
    omega
  · have h1 := longCount_le .double 0 4294967296
    have h2 := longCount_subnormal (T := .double) (by decide) (by decide) double_subnormal
    have h3 := longCount_normal (T := .double) (by decide) double_sum_0
    have h4 := longCount_normal (T := .double) (by decide) double_sum_512
    have h5 := longCount_normal (T := .double) (by decide) double_sum_1024
    have h6 := longCount_normal (T := .double) (by decide) double_sum_1536
    have e : posInf .double = 4294967296 + (2 ^ (32 + 20) - 2 ^ 32 + (2 ^ (FloatType.double.p - 1) * 512 +
      (2 ^ (FloatType.double.p - 1) * 512 + (2 ^ (FloatType.double.p - 1) * 512 + 2 ^ (FloatType.double.p - 1) * 510)))) := by
      decide
    rw [e, longCount_add, longCount_add, longCount_add, longCount_add, longCount_add]
    have e1 : 0 + 4294967296 = 2 ^ 32 := by norm_num
    have e2 : (2 : Nat) ^ 32 + (2 ^ (32 + 20) - 2 ^ 32) = 2 ^ (FloatType.double.p - 1) * (0 + 1) := by decide
    have e3 : 2 ^ (FloatType.double.p - 1) * (0 + 1) + 2 ^ (FloatType.double.p - 1) * 512 =
      2 ^ (FloatType.double.p - 1) * (512 + 1) := by decide
    have e4 : 2 ^ (FloatType.double.p - 1) * (512 + 1) + 2 ^ (FloatType.double.p - 1) * 512 =
      2 ^ (FloatType.double.p - 1) * (1024 + 1) := by decide
    have e5 : 2 ^ (FloatType.double.p - 1) * (1024 + 1) + 2 ^ (FloatType.double.p - 1) * 512 =
      2 ^ (FloatType.double.p - 1) * (1536 + 1) := by decide
    rw [e1, e2, e3, e4, e5]
    show _ ≤ 10762352593161066
    omega

/-- Ten-thousandths of all finite values. -/
def longShare : FloatType → Nat
  | .float => 90
  | .double => 12

open Classical in
/-- **C90.** Of all finite values - of either sign, subnormal ones included - less than 0.9%
(`double`: 0.12%) are not printed with the fewest significant digits possible; so more than
99% (99.88%) are. -/
theorem C90_efficiency (T : FloatType) :
    10000 * ((Finset.range (2 ^ T.W)).filter (fun b => IsFinite T b ∧ ¬ PrintedShortest T b)).card <
      longShare T * ((Finset.range (2 ^ T.W)).filter (fun b => IsFinite T b)).card := by
  have hW := two_W T
  have hpi : posInf T < 2 ^ (T.W - 1) := by cases T <;> decide
  have h1 : ((Finset.range (2 ^ T.W)).filter (fun b => IsFinite T b ∧ ¬ PrintedShortest T b)).card ≤
      2 * longCount T 0 (posInf T) := by
    unfold longCount
    rw [show 2 = (Finset.range 2).card by simp, ← Finset.card_product]
    apply Finset.card_le_card_of_injOn (fun b => (signBit T b, absPat T b))
    · intro b hb
      simp only [Finset.coe_filter, Set.mem_ofPred_eq, Finset.mem_range] at hb
      obtain ⟨b1, b2, b3⟩ := hb
      simp only [Finset.coe_product, Set.mem_prod, Finset.coe_filter, Set.mem_ofPred_eq, Finset.mem_coe, Finset.mem_range]
      refine ⟨by have := (pat_decomp b1).2; omega, absPat_lt_posInf b2, b, b1, by simp, b3⟩
    · intro b hb c hc h
      simp only [Finset.coe_filter, Set.mem_ofPred_eq, Finset.mem_range] at hb hc
      simp only [Prod.mk.injEq] at h
      rw [(pat_decomp hb.1).1, (pat_decomp hc.1).1, h.1, h.2]
  have h2 : 2 * posInf T ≤ ((Finset.range (2 ^ T.W)).filter (fun b => IsFinite T b)).card := by
    rw [show 2 * posInf T = ((Finset.range 2) ×ˢ (Finset.range (posInf T))).card by simp]
    apply Finset.card_le_card_of_injOn (fun q => q.2 + q.1 * 2 ^ (T.W - 1))
    · rintro ⟨s, a⟩ hq
      simp only [Finset.coe_product, Set.mem_prod, Finset.mem_coe, Finset.mem_range] at hq
      simp only [Finset.coe_filter, Set.mem_ofPred_eq, Finset.mem_range]
      have hlt : a + s * 2 ^ (T.W - 1) < 2 ^ T.W := by
        have : s = 0 ∨ s = 1 := by omega
        rcases this with rfl | rfl <;> omega
      refine ⟨hlt, hlt, ?_⟩
      have e : expField T (a + s * 2 ^ (T.W - 1)) = expField T a := by
        rw [expField_eq, expField_eq]
        unfold absPat
        rw [Nat.add_mul_mod_self_right]
      rw [e]
      exact (isFinite_of_lt hq.2).2
    · rintro ⟨s, a⟩ hq ⟨s', a'⟩ hq' h
      simp only [Finset.coe_product, Set.mem_prod, Finset.mem_coe, Finset.mem_range] at hq hq'
      simp only at h
      have : s = 0 ∨ s = 1 := by omega
      have : s' = 0 ∨ s' = 1 := by omega
      have : s = s' ∧ a = a' := by
        rcases ‹s = 0 ∨ s = 1› with rfl | rfl <;> rcases ‹s' = 0 ∨ s' = 1› with rfl | rfl <;> omega
      rw [this.1, this.2]
  have h3 := longCount_all T
  have h4 : 10000 * (2 * longBound T) < longShare T * (2 * posInf T) := by cases T <;> decide
  calc _ ≤ 10000 * (2 * longBound T) := Nat.mul_le_mul_left _ (h1.trans (Nat.mul_le_mul_left _ h3))
    _ < _ := h4
    _ ≤ _ := Nat.mul_le_mul_left _ h2

/-- A text that is not the shortest. -/
theorem not_shortest_of {T : FloatType} {b : Nat} {neg : Bool} {ds : List (Fin 10)} {k : Int} {d : Nat} {j : Int}
    (hne : ds ≠ []) (hh : ds.head hne ≠ 0) (hl : ds.getLast hne ≠ 0)
    (hk : ((ds.length : Int) + k - 1).natAbs < 1000)
    (hp : Prints T b (fmtNumeral neg ds k).text) (hr : RoundsTo T (d * 10 ^ j) b) (hlt : d < 10 ^ (ds.length - 1)) :
    ¬ PrintedShortest T b := by
  rintro ⟨n, ds', k', h1, h2, h3⟩
  have hn : n = fmtNumeral neg ds k := numeral_text_inj _ _ (prints_unique h1 hp)
  have hv := h2.value
  rw [hn, fmt_absValue _ ds k hne hk] at hv
  have hh' : ds'.head h2.nonempty ≠ 0 := by
    have := h2.first
    rw [List.head?_eq_some_head h2.nonempty] at this
    simpa using this
  have hl' : ds'.getLast h2.nonempty ≠ 0 := by
    have := h2.last
    rw [List.getLast?_eq_some_getLast h2.nonempty] at this
    simpa using this
  have he := (significant_unique hne h2.nonempty hh hh' hl hl' hv).1
  have := h3 _ d j (abs_of_nonneg (by positivity)) hr
  rw [← he] at this
  omega

/-- **C90, not all.** There are values that are not printed shortest, so the bound is
about something. -/
theorem C90_not_all (T : FloatType) : ∃ bits, IsFinite T bits ∧ ¬ PrintedShortest T bits := by
  obtain ⟨⟨d1, d2, d3⟩, f1, f2, f3⟩ := C45_not_shortest
  cases T
  · refine ⟨_, f1.1, not_shortest_of (neg := false) (ds := [5, 4, 9, 7, 6, 6, 8, 9]) (k := 8) (d := 5497669)
      (j := 9) (by decide) (by decide) (by decide) (by decide) ?_ ?_ (by decide)⟩
    · exact (show (fmtNumeral false [5, 4, 9, 7, 6, 6, 8, 9] 8).text = chars "5497668900000000" by decide) ▸ f2
    · have := identifies_roundsTo f3 (fun h => absurd (value_zero_iff.mp h) (by decide))
      exact_mod_cast this
  · refine ⟨_, d1.1, not_shortest_of (neg := false) (ds := [4, 2, 8, 6, 2, 4, 6, 2, 9, 2, 2, 8, 0, 5, 4, 8, 5]) (k := 5)
      (d := 4286246292280548) (j := 6) (by decide) (by decide) (by decide) (by decide) ?_ ?_ (by decide)⟩
    · exact (show (fmtNumeral false [4, 2, 8, 6, 2, 4, 6, 2, 9, 2, 2, 8, 0, 5, 4, 8, 5] 5).text =
        chars "4.2862462922805485e21" by decide) ▸ d2
    · have := identifies_roundsTo d3 (fun h => absurd (value_zero_iff.mp h) (by decide))
      exact_mod_cast this

end Floaxie
