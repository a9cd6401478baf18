import Mathlib.Tactic.Ring
import Mathlib.Tactic.Linarith
import Mathlib.Tactic.NormNum
import Verif.Model.DiyFp

/-! # Word-level lemmas -/

namespace Floaxie

open FloatType

theorem ok_bind {α β : Type} (a : α) (f : α → M β) : (Except.ok a >>= f : M β) = f a := rfl
theorem pure_bind' {α β : Type} (a : α) (f : α → M β) : ((pure a : M α) >>= f : M β) = f a := rfl
theorem error_bind {α β : Type} (e : UB) (f : α → M β) :
    (Except.error e >>= f : M β) = Except.error e := rfl

theorem assertM_true {c : Bool} (h : c = true) : assertM c = .ok () := by
  simp [assertM, h]

theorem one_shl (n : Nat) : 1 <<< n = 2 ^ n := by simp [Nat.shiftLeft_eq]

theorem mask_lt {W n : Nat} (h : n < W) : mask W n = 2 ^ n - 1 := by
  simp [mask, h, one_shl]

theorem mask_ge {W n : Nat} (h : W ≤ n) : mask W n = 2 ^ W - 1 := by
  simp [mask, Nat.not_lt.mpr h]

theorem and_mask {W n x : Nat} (hx : x < 2 ^ W) : x &&& mask W n = x % 2 ^ n := by
  by_cases h : n < W
  · rw [mask_lt h, Nat.and_two_pow_sub_one_eq_mod]
  · have h : W ≤ n := Nat.not_lt.mp h
    rw [mask_ge h, Nat.and_two_pow_sub_one_eq_mod, Nat.mod_eq_of_lt hx,
      Nat.mod_eq_of_lt (lt_of_lt_of_le hx (Nat.pow_le_pow_right (by norm_num) h))]

theorem and_pow (x i : Nat) : x &&& 2 ^ i = (x / 2 ^ i % 2) * 2 ^ i := by
  apply Nat.eq_of_testBit_eq
  intro j
  rw [Nat.testBit_and, Nat.testBit_two_pow, Nat.testBit_mul_two_pow]
  by_cases h : i = j
  · subst h
    have : x.testBit i = (x / 2 ^ i % 2).testBit 0 := by
      rw [Nat.testBit_zero, Nat.mod_mod, ← Nat.toNat_testBit]
      cases x.testBit i <;> simp
    simp [this]
  · by_cases h2 : i ≤ j
    · have h3 : (x / 2 ^ i % 2) < 2 ^ (j - i) := by
        have : x / 2 ^ i % 2 < 2 := Nat.mod_lt _ (by norm_num)
        calc _ < 2 ^ 1 := by simpa using this
          _ ≤ _ := Nat.pow_le_pow_right (by norm_num) (by omega)
      simp [h, Nat.testBit_lt_two_pow h3]
    · simp [h, h2]

/-- `value & 2^i` is non-zero iff bit `i` is set. -/
theorem and_pow_ne_zero (x i : Nat) : x &&& 2 ^ i ≠ 0 ↔ x / 2 ^ i % 2 = 1 := by
  rw [and_pow]
  have h : x / 2 ^ i % 2 < 2 := Nat.mod_lt _ (by norm_num)
  have hp : 2 ^ i ≠ 0 := by positivity
  rw [Ne, Nat.mul_eq_zero]
  omega

theorem nthBit_eq (x i : Nat) : nthBit x i = decide (x / 2 ^ i % 2 = 1) := by
  unfold nthBit
  rw [one_shl, bne, Bool.eq_iff_iff]
  simpa using and_pow_ne_zero x i

theorem highestBit_eq {W x : Nat} (hW : 0 < W) (hx : x < 2 ^ W) :
    highestBit W x = decide (2 ^ (W - 1) ≤ x) := by
  unfold highestBit
  rw [nthBit_eq, Bool.eq_iff_iff]
  have h2 : 2 ^ W = 2 * 2 ^ (W - 1) := by
    rw [← pow_succ']; congr 1; omega
  have hlt : x / 2 ^ (W - 1) < 2 := by
    rw [Nat.div_lt_iff_lt_mul (by positivity), ← h2]; exact hx
  simp only [decide_eq_true_eq]
  constructor
  · intro h
    have : 1 ≤ x / 2 ^ (W - 1) := by
      generalize x / 2 ^ (W - 1) = q at *
      omega
    rwa [Nat.le_div_iff_mul_le (by positivity), one_mul] at this
  · intro h
    have : 1 ≤ x / 2 ^ (W - 1) := by
      rwa [Nat.le_div_iff_mul_le (by positivity), one_mul]
    omega

/-- Bit `n-1` of `x` in terms of `x % 2^n`. -/
theorem bit_iff_half_le {x n : Nat} (hn : 0 < n) :
    x / 2 ^ (n - 1) % 2 = 1 ↔ 2 ^ (n - 1) ≤ x % 2 ^ n := by
  obtain ⟨m, rfl⟩ : ∃ m, n = m + 1 := ⟨n - 1, by omega⟩
  simp only [Nat.add_sub_cancel]
  rw [Nat.mod_pow_succ]
  have h1 : x % 2 ^ m < 2 ^ m := Nat.mod_lt _ (by positivity)
  have h2 : x / 2 ^ m % 2 < 2 := Nat.mod_lt _ (by norm_num)
  constructor
  · intro h; rw [h]; omega
  · intro h
    by_contra hne
    have : x / 2 ^ m % 2 = 0 := by omega
    rw [this] at h; omega

/-- Full description of `round_up`. -/
theorem roundUp_eq {W x n : Nat} (hn : 0 < n) (hnW : n ≤ W) (hx : x < 2 ^ W) :
    roundUp W x n = .ok {
      value := decide (2 ^ (n - 1) < x % 2 ^ n ∨ (x % 2 ^ n = 2 ^ (n - 1) ∧ x / 2 ^ n % 2 = 1))
      isAccurate := decide (x % 2 ^ n ≠ 2 ^ (n - 1)) } := by
  have hrb : raisedBit W (n - 1) = .ok (2 ^ (n - 1)) := by
    simp [raisedBit, one_shl, show n - 1 < W by omega]
  unfold roundUp
  rw [assertM_true (by simpa using hn), ok_bind, hrb, ok_bind]
  simp only [pure, Except.pure, Except.ok.injEq, RoundResult.mk.injEq]
  constructor
  · rw [Bool.eq_iff_iff]
    simp only [Bool.and_eq_true, bne_iff_ne, decide_eq_true_eq]
    rw [and_pow_ne_zero, Nat.and_xor_distrib_left, and_mask hx, bit_iff_half_le hn]
    have hmod : x % 2 ^ (n + 1) = x % 2 ^ n + 2 ^ n * (x / 2 ^ n % 2) := Nat.mod_pow_succ
    have hb : x / 2 ^ n % 2 < 2 := Nat.mod_lt _ (by norm_num)
    have hp : 2 ^ n = 2 * 2 ^ (n - 1) := by
      rw [← pow_succ']; congr 1; omega
    have hpp : 0 < 2 ^ (n - 1) := by positivity
    constructor
    · rintro ⟨h1, h2⟩
      have hbit : x &&& 2 ^ (n - 1) = 2 ^ (n - 1) := by
        rw [and_pow, (bit_iff_half_le (x := x) hn).mpr h1, one_mul]
      rw [hbit] at h2
      have h3 : x % 2 ^ (n + 1) ≠ 2 ^ (n - 1) := by
        intro h; apply h2; rw [h, Nat.xor_self]
      rcases Nat.lt_or_ge (2 ^ (n - 1)) (x % 2 ^ n) with h | h
      · exact Or.inl h
      · right
        refine ⟨by omega, ?_⟩
        by_contra hne
        have h0 : x / 2 ^ n % 2 = 0 := by omega
        rw [h0] at hmod
        omega
    · intro h
      have h1 : 2 ^ (n - 1) ≤ x % 2 ^ n := by omega
      refine ⟨h1, ?_⟩
      have hbit : x &&& 2 ^ (n - 1) = 2 ^ (n - 1) := by
        rw [and_pow, (bit_iff_half_le (x := x) hn).mpr h1, one_mul]
      rw [hbit]
      intro h4
      have h5 : x % 2 ^ (n + 1) = 2 ^ (n - 1) := by
        apply Nat.eq_of_testBit_eq
        intro i
        have := congrArg (fun z => Nat.testBit z i) h4
        simpa [-Nat.testBit_mod_two_pow] using this
      rcases h with h | ⟨h, h'⟩
      · have : x % 2 ^ n < 2 ^ n := Nat.mod_lt _ (by positivity)
        rcases Nat.lt_or_ge (x / 2 ^ n % 2) 1 with hz | hz
        · have : x / 2 ^ n % 2 = 0 := by omega
          rw [this] at hmod; omega
        · have : x / 2 ^ n % 2 = 1 := by omega
          rw [this] at hmod; omega
      · rw [h'] at hmod; omega
  · rw [and_mask hx, Bool.eq_iff_iff]
    simp

/-- `diy_fp::operator*=` rounds the exact product half up. -/
theorem mul_f (T : FloatType) (x y : DiyFp) (hx : x.f < 2 ^ T.W) (hy : y.f < 2 ^ T.W) :
    (x.mul T.W y).f = (x.f * y.f + 2 ^ (T.W - 1)) / 2 ^ T.W := by
  unfold DiyFp.mul
  cases T
  · have hm : mask 32 16 = 2 ^ 16 - 1 := mask_lt (by norm_num)
    simp only [FloatType.W] at hx hy ⊢
    simp only [Nat.shiftRight_eq_div_pow, Nat.shiftLeft_eq, hm, Nat.and_two_pow_sub_one_eq_mod,
      show 32 / 2 = 16 from rfl, show 32 - 1 = 31 from rfl, show 16 - 1 = 15 from rfl]
    generalize x.f = X at *
    generalize y.f = Y at *
    have e1 : X = (X / 2 ^ 16) * 2 ^ 16 + X % 2 ^ 16 := by omega
    have e2 : Y = (Y / 2 ^ 16) * 2 ^ 16 + Y % 2 ^ 16 := by omega
    have ha : X / 2 ^ 16 ≤ 2 ^ 16 - 1 := by omega
    have hb : X % 2 ^ 16 ≤ 2 ^ 16 - 1 := by omega
    have hc : Y / 2 ^ 16 ≤ 2 ^ 16 - 1 := by omega
    have hd : Y % 2 ^ 16 ≤ 2 ^ 16 - 1 := by omega
    generalize X / 2 ^ 16 = a at *
    generalize X % 2 ^ 16 = b at *
    generalize Y / 2 ^ 16 = c at *
    generalize Y % 2 ^ 16 = d at *
    have hp : X * Y = a * c * 2 ^ 32 + (a * d + b * c) * 2 ^ 16 + b * d := by
      rw [e1, e2]; ring
    rw [hp]
    have h1 := Nat.mul_le_mul ha hc
    have h2 := Nat.mul_le_mul ha hd
    have h3 := Nat.mul_le_mul hb hc
    have h4 := Nat.mul_le_mul hb hd
    generalize a * c = ac at *
    generalize a * d = ad at *
    generalize b * c = bc at *
    generalize b * d = bd at *
    clear e1 e2 hp ha hb hc hd
    omega
  · have hm : mask 64 32 = 2 ^ 32 - 1 := mask_lt (by norm_num)
    simp only [FloatType.W] at hx hy ⊢
    simp only [Nat.shiftRight_eq_div_pow, Nat.shiftLeft_eq, hm, Nat.and_two_pow_sub_one_eq_mod,
      show 64 / 2 = 32 from rfl, show 64 - 1 = 63 from rfl, show 32 - 1 = 31 from rfl]
    generalize x.f = X at *
    generalize y.f = Y at *
    have e1 : X = (X / 2 ^ 32) * 2 ^ 32 + X % 2 ^ 32 := by omega
    have e2 : Y = (Y / 2 ^ 32) * 2 ^ 32 + Y % 2 ^ 32 := by omega
    have ha : X / 2 ^ 32 ≤ 2 ^ 32 - 1 := by omega
    have hb : X % 2 ^ 32 ≤ 2 ^ 32 - 1 := by omega
    have hc : Y / 2 ^ 32 ≤ 2 ^ 32 - 1 := by omega
    have hd : Y % 2 ^ 32 ≤ 2 ^ 32 - 1 := by omega
    generalize X / 2 ^ 32 = a at *
    generalize X % 2 ^ 32 = b at *
    generalize Y / 2 ^ 32 = c at *
    generalize Y % 2 ^ 32 = d at *
    have hp : X * Y = a * c * 2 ^ 64 + (a * d + b * c) * 2 ^ 32 + b * d := by
      rw [e1, e2]; ring
    rw [hp]
    have h1 := Nat.mul_le_mul ha hc
    have h2 := Nat.mul_le_mul ha hd
    have h3 := Nat.mul_le_mul hb hc
    have h4 := Nat.mul_le_mul hb hd
    generalize a * c = ac at *
    generalize a * d = ad at *
    generalize b * c = bc at *
    generalize b * d = bd at *
    clear e1 e2 hp ha hb hc hd
    omega

theorem mul_e (W : Nat) (x y : DiyFp) : (x.mul W y).e = x.e + y.e + W := rfl

/-- Loop of `normalize`. -/
theorem normalizeLoop_ok {W : Nat} (hW : 0 < W) : ∀ (n : Nat) (w : DiyFp),
    w.f < 2 ^ W → 2 ^ W ≤ w.f * 2 ^ n → ∃ j, j < n ∧
      normalizeLoop W n w = .ok { f := w.f * 2 ^ j, e := w.e - j } ∧
      2 ^ (W - 1) ≤ w.f * 2 ^ j ∧ w.f * 2 ^ j < 2 ^ W := by
  intro n
  induction n with
  | zero => intro w h1 h2; simp at h2; omega
  | succ n ih =>
    intro w h1 h2
    have hWW : 2 ^ W = 2 * 2 ^ (W - 1) := by
      rw [← pow_succ']; congr 1; omega
    unfold normalizeLoop
    rw [highestBit_eq hW h1]
    by_cases hb : 2 ^ (W - 1) ≤ w.f
    · refine ⟨0, by omega, ?_, by simpa using hb, by simpa using h1⟩
      simp [hb]
    · simp only [hb, decide_false, Bool.false_eq_true, ↓reduceIte]
      have hs : (w.f <<< 1) % 2 ^ W = w.f * 2 := by
        rw [Nat.shiftLeft_eq, pow_one, Nat.mod_eq_of_lt]; omega
      rw [hs]
      obtain ⟨j, hj, he, h3, h4⟩ := ih { f := w.f * 2, e := w.e - 1 } (by simp; omega)
        (by simp only; rw [mul_assoc, ← pow_succ']; exact h2)
      refine ⟨j + 1, by omega, ?_, ?_, ?_⟩
      · rw [he]
        simp only [Except.ok.injEq, DiyFp.mk.injEq]
        refine ⟨by ring, by push_cast; ring⟩
      · rw [pow_succ']; rw [← mul_assoc]; exact h3
      · rw [pow_succ']; rw [← mul_assoc]; exact h4

/-- `normalize` keeps the value and sets the top bit. -/
theorem normalize_ok {W : Nat} (hW : 0 < W) (w : DiyFp) (h0 : w.f ≠ 0) (h1 : w.f < 2 ^ W) :
    ∃ j, j < W ∧ w.normalize W = .ok { f := w.f * 2 ^ j, e := w.e - j } ∧
      2 ^ (W - 1) ≤ w.f * 2 ^ j ∧ w.f * 2 ^ j < 2 ^ W := by
  unfold DiyFp.normalize
  rw [assertM_true (by simpa using h0), ok_bind]
  apply normalizeLoop_ok hW W w h1
  exact Nat.le_mul_of_pos_left _ (Nat.pos_of_ne_zero h0)

end Floaxie
