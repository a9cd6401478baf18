import Verif.Proof.BlockCount
import Verif.Proof.Atof

/-!
# Counting the numerals for which the fallback is asked

All significands with the same number of digits and the same binary length at a time.
-/

namespace Floaxie

open Spec FloatType

/-- What the mantissa is multiplied by: the entry of the table, or nothing (`2^W / 2^W`). -/
def askFactor (T : FloatType) (PF i : Nat) : Nat :=
  if i = T.pow0Offset then 2 ^ T.W else unpack PF i

/-- The mantissa of `d`, shifted by `s`, times the factor. -/
def askProduct (W F d : Nat) : Nat := (d * F + 2 ^ (W - 1)) / 2 ^ W

/-- `d * F` rounds to a tie: half of the last place is left, the product being short by one
bit or not. -/
def AskTie (T : FloatType) (F d : Nat) : Prop :=
  if askProduct T.W F d < 2 ^ (T.W - 1) then
    askProduct T.W F d % 2 ^ (T.W - T.p - 1) = 2 ^ (T.W - T.p - 2)
  else askProduct T.W F d % 2 ^ (T.W - T.p) = 2 ^ (T.W - T.p - 1)

instance (T : FloatType) (F d : Nat) : Decidable (AskTie T F d) := by unfold AskTie; infer_instance

/-- The ties among the `d` from `lo` below `hi`, `th` being the first one with a full product. -/
def tieCount (T : FloatType) (F lo th hi : Nat) : Option Nat :=
  force (2 ^ (T.W + (T.W - T.p - 1))) fun m1 =>
  force (2 ^ (T.W + (T.W - T.p))) fun m2 =>
  force (lo * F + 2 ^ (T.W - 1) + m1 - 2 ^ (T.W - T.p - 2) * 2 ^ T.W) fun b1 =>
  force (th * F + 2 ^ (T.W - 1) + m2 - 2 ^ (T.W - T.p - 1) * 2 ^ T.W) fun b2 =>
  if lo ≤ th ∧ th ≤ hi ∧ (th = lo ∨ (th - 1) * F + 2 ^ (T.W - 1) < 2 ^ (T.W + (T.W - 1))) ∧
      (th = hi ∨ 2 ^ (T.W + (T.W - 1)) ≤ th * F + 2 ^ (T.W - 1)) then
    match countMod 200 (th - lo) m1 F b1 (2 ^ T.W), countMod 200 (hi - th) m2 F b2 (2 ^ T.W) with
    | some x, some y => some (x + y)
    | _, _ => none
  else none

theorem window_mod {W l x : Nat} (hl : 0 < l) :
    (x + 2 ^ (W + l) - 2 ^ (l - 1) * 2 ^ W) % 2 ^ (W + l) < 2 ^ W ↔ x / 2 ^ W % 2 ^ l = 2 ^ (l - 1) := by
  obtain ⟨k, rfl⟩ : ∃ k, l = k + 1 := ⟨l - 1, by omega⟩
  rw [Nat.add_sub_cancel]
  have hW : 0 < 2 ^ W := by positivity
  have hk : 0 < 2 ^ k := by positivity
  have h2 : 2 ^ (k + 1) = 2 * 2 ^ k := by rw [pow_succ]; ring
  have e : 2 ^ (W + (k + 1)) = 2 ^ W * (2 * 2 ^ k) := by rw [pow_add, h2]
  rw [e, h2]
  have d1 := Nat.div_add_mod x (2 ^ W)
  have d2 := Nat.mod_lt x hW
  generalize x % 2 ^ W = r at *
  generalize x / 2 ^ W = q at *
  have d3 := Nat.div_add_mod q (2 * 2 ^ k)
  have d4 := Nat.mod_lt q (show 0 < 2 * 2 ^ k by omega)
  generalize q % (2 * 2 ^ k) = v at *
  generalize q / (2 * 2 ^ k) = u at *
  generalize 2 ^ k = h at *
  generalize 2 ^ W = B at *
  have e2 : x + B * (2 * h) - h * B = r + B * (v + h) + B * (2 * h) * u := by
    rw [← d1, ← d3]
    have : B * (2 * h) = h * B + h * B := by ring
    rw [this, ← add_assoc, Nat.add_sub_cancel]
    ring
  rw [e2, Nat.add_mul_mod_self_left]
  rcases lt_or_ge v h with hv | hv
  · have : r + B * (v + h) < B * (2 * h) := by
      have : B * (v + h + 1) ≤ B * (2 * h) := Nat.mul_le_mul_left _ (by omega)
      rw [mul_add, mul_one] at this
      omega
    rw [Nat.mod_eq_of_lt this]
    have : B * h ≤ B * (v + h) := Nat.mul_le_mul_left _ (by omega)
    have : B * 1 ≤ B * h := Nat.mul_le_mul_left _ (by omega)
    omega
  · obtain ⟨c, rfl⟩ := Nat.exists_eq_add_of_le hv
    have e3 : r + B * (h + c + h) = r + B * c + B * (2 * h) := by ring
    have : r + B * c < B * (2 * h) := by
      have : B * (c + 1) ≤ B * (2 * h) := Nat.mul_le_mul_left _ (by omega)
      rw [mul_add, mul_one] at this
      omega
    rw [e3, Nat.add_mod_right, Nat.mod_eq_of_lt this]
    constructor
    · intro h5
      rcases Nat.eq_zero_or_pos c with rfl | h6
      · rfl
      · have : B * 1 ≤ B * c := Nat.mul_le_mul_left _ h6
        omega
    · intro h5
      have : c = 0 := by omega
      subst this
      omega

theorem card_window (W l F lo n c : Nat) (hl : 0 < l)
    (h : countMod 200 n (2 ^ (W + l)) F (lo * F + 2 ^ (W - 1) + 2 ^ (W + l) - 2 ^ (l - 1) * 2 ^ W) (2 ^ W) = some c) :
    c = ((Finset.range n).filter (fun i => askProduct W F (lo + i) % 2 ^ l = 2 ^ (l - 1))).card := by
  rw [countMod_eq _ _ _ _ _ _ _ (by positivity) (Nat.pow_le_pow_right (by norm_num) (by omega)) h]
  congr 1
  apply Finset.filter_congr
  intro i _
  unfold askProduct
  rw [← window_mod hl]
  have hle : 2 ^ (l - 1) * 2 ^ W ≤ 2 ^ (W + l) := by
    rw [← pow_add]; exact Nat.pow_le_pow_right (by norm_num) (by omega)
  have : F * i + (lo * F + 2 ^ (W - 1) + 2 ^ (W + l) - 2 ^ (l - 1) * 2 ^ W) =
      (lo + i) * F + 2 ^ (W - 1) + 2 ^ (W + l) - 2 ^ (l - 1) * 2 ^ W := by
    rw [← Nat.add_sub_assoc (le_trans hle (Nat.le_add_left _ _))]
    congr 1
    ring
  rw [this]

theorem tieCount_spec {T : FloatType} {F lo th hi c : Nat} (h : tieCount T F lo th hi = some c) :
    ((Finset.Ico lo hi).filter (fun d => AskTie T F d)).card = c := by
  unfold tieCount at h
  simp only [force_eq] at h
  split_ifs at h with hc
  obtain ⟨h1, h2, h3, h4⟩ := hc
  have hl : 2 ≤ T.W - T.p := by cases T <;> decide
  cases hx : countMod 200 (th - lo) (2 ^ (T.W + (T.W - T.p - 1))) F
      (lo * F + 2 ^ (T.W - 1) + 2 ^ (T.W + (T.W - T.p - 1)) - 2 ^ (T.W - T.p - 2) * 2 ^ T.W) (2 ^ T.W) with
  | none => rw [hx] at h; simp at h
  | some x =>
  cases hy : countMod 200 (hi - th) (2 ^ (T.W + (T.W - T.p))) F
      (th * F + 2 ^ (T.W - 1) + 2 ^ (T.W + (T.W - T.p)) - 2 ^ (T.W - T.p - 1) * 2 ^ T.W) (2 ^ T.W) with
  | none => rw [hx, hy] at h; simp at h
  | some y =>
  rw [hx, hy] at h
  simp only [Option.some.injEq] at h
  have ex := card_window T.W (T.W - T.p - 1) F lo _ x (by omega) (by rw [show T.W - T.p - 1 - 1 = T.W - T.p - 2 by omega]; exact hx)
  have ey := card_window T.W (T.W - T.p) F th _ y (by omega) hy
  have key : ∀ (a n : Nat) (p : Nat → Prop) [DecidablePred p],
      ((Finset.Ico a (a + n)).filter p).card = ((Finset.range n).filter (fun i => p (a + i))).card := by
    intro a n p _
    refine Eq.trans ?_ (Finset.card_map (addLeftEmbedding a))
    congr 1
    ext d
    simp only [Finset.mem_filter, Finset.mem_Ico, Finset.mem_map, Finset.mem_range, addLeftEmbedding_apply]
    constructor
    · rintro ⟨⟨a1, a2⟩, a3⟩
      exact ⟨d - a, ⟨by omega, by rwa [Nat.add_sub_cancel' a1]⟩, by omega⟩
    · rintro ⟨i, ⟨a1, a2⟩, rfl⟩
      exact ⟨⟨by omega, by omega⟩, a2⟩
  rw [← h, ex, ey, ← Finset.Ico_union_Ico_eq_Ico h1 h2, Finset.filter_union, Finset.card_union_of_disjoint]
  · have k1 := key lo (th - lo) (fun d => AskTie T F d)
    have k2 := key th (hi - th) (fun d => AskTie T F d)
    rw [Nat.add_sub_cancel' h1] at k1
    rw [Nat.add_sub_cancel' h2] at k2
    rw [k1, k2]
    congr 1
    · congr 1
      apply Finset.filter_congr
      intro i hi'
      rw [Finset.mem_range] at hi'
      have : askProduct T.W F (lo + i) < 2 ^ (T.W - 1) := by
        unfold askProduct
        apply Nat.div_lt_of_lt_mul
        rw [← pow_add]
        rcases h3 with h3 | h3
        · omega
        · refine lt_of_le_of_lt ?_ h3
          have := Nat.mul_le_mul_right F (show lo + i ≤ th - 1 by omega)
          omega
      unfold AskTie
      rw [if_pos this, show T.W - T.p - 1 - 1 = T.W - T.p - 2 by omega]
    · congr 1
      apply Finset.filter_congr
      intro i hi'
      rw [Finset.mem_range] at hi'
      have : ¬ askProduct T.W F (th + i) < 2 ^ (T.W - 1) := by
        unfold askProduct
        rw [not_lt, Nat.le_div_iff_mul_le (by positivity), ← pow_add, add_comm (T.W - 1)]
        rcases h4 with h4 | h4
        · omega
        · refine le_trans h4 ?_
          have := Nat.mul_le_mul_right F (show th ≤ th + i by omega)
          omega
      unfold AskTie
      rw [if_neg this]
  · exact Finset.disjoint_filter_filter (Finset.Ico_disjoint_Ico_consecutive _ _ _)

/-- The ties among the numbers of `maxSigDigits T` digits with `s` bits less than the word. -/
def octCount (T : FloatType) (f s : Nat) : Option Nat :=
  force (f * 2 ^ s) fun F =>
  force (max (10 ^ (maxSigDigits T - 1)) (2 ^ (T.W - 1 - s))) fun lo =>
  force (min (10 ^ maxSigDigits T) (2 ^ (T.W - s))) fun hi =>
  force (min hi (max lo ((2 ^ (T.W + (T.W - 1)) - 2 ^ (T.W - 1) + (F - 1)) / F))) fun th =>
  tieCount T F lo th hi

/-- The shift of the shortest of them. -/
def askShift : FloatType → Nat
  | .float => 5
  | .double => 10

/-- The ties among all numbers of so many digits. -/
def askCount (T : FloatType) (PF i : Nat) : Option Nat :=
  force (askFactor T PF i) fun f =>
  match octCount T f (askShift T), octCount T f (askShift T - 1), octCount T f (askShift T - 2), octCount T f (askShift T - 3) with
  | some a, some b, some c, some d => some (a + b + c + d)
  | _, _, _, _ => none

/-- Ten-thousandths of all numerals, for the index of a power of ten. -/
def askShareAt (T : FloatType) (i : Nat) : Nat :=
  match T with
  | .float => if T.pow0Offset ≤ i + 2 ∧ i ≤ T.pow0Offset then 350 else 88
  | .double => if i = T.pow0Offset then 1823 else if T.pow0Offset ≤ i + 1 ∧ i ≤ T.pow0Offset + 3 then 618 else 11

/-- The shares are not exceeded for `n` exponents from index `i` on. -/
def askOk (T : FloatType) (PF : Nat) : (n i : Nat) → Bool
  | 0, _ => true
  | n + 1, i =>
    (match askCount T PF i with
     | none => false
     | some c => decide (10000 * c < askShareAt T i * (81 * 10 ^ (maxSigDigits T - 2)))) &&
    force (i + 1) fun i => askOk T PF n i

def askCheck (T : FloatType) (n i : Nat) : Bool := force (packF T) fun PF => askOk T PF n i

end Floaxie
