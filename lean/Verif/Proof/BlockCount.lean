import Verif.Proof.FloorSum
import Verif.Proof.Sliver

/-!
# Counting the values that may be printed longer than necessary

All values with the same exponent at a time.
-/

namespace Floaxie

open Spec FloatType

/-- A table of numbers below `2^64` as one number (the kernel's evaluator finds an entry faster
this way). -/
def pack (l : List Nat) : Nat := l.foldr (fun x a => x + 2 ^ 64 * a) 0

/-- Entry `i` of a packed table. -/
def unpack (P i : Nat) : Nat := P / 2 ^ (64 * i) % 2 ^ 64

theorem unpack_pack (l : List Nat) (i x : Nat) (hl : ∀ y ∈ l, y < 2 ^ 64) (h : l[i]? = some x) :
    unpack (pack l) i = x := by
  unfold unpack
  induction l generalizing i with
  | nil => simp at h
  | cons y l ih =>
    have hy : y < 2 ^ 64 := hl y (by simp)
    show (y + 2 ^ 64 * pack l) / 2 ^ (64 * i) % 2 ^ 64 = x
    cases i with
    | zero =>
      simp only [List.getElem?_cons_zero, Option.some.injEq] at h
      rw [Nat.mul_zero, pow_zero, Nat.div_one, Nat.add_mul_mod_self_left, Nat.mod_eq_of_lt hy, h]
    | succ i =>
      rw [List.getElem?_cons_succ] at h
      rw [show 64 * (i + 1) = 64 + 64 * i by ring, pow_add, ← Nat.div_div_eq_div_mul,
        Nat.add_mul_div_left _ _ (by positivity), Nat.div_eq_of_lt hy, Nat.zero_add]
      exact ih i (fun z hz => hl z (by simp [hz])) h

def packF (T : FloatType) : Nat := pack T.powF
def packE (T : FloatType) : Nat := pack (T.powE.map fun e => (e + 2000).toNat)

theorem tables_small (T : FloatType) :
    (∀ y ∈ T.powF, y < 2 ^ 64) ∧ (∀ y ∈ T.powE.map (fun e => (e + 2000).toNat), y < 2 ^ 64) ∧
    ∀ e ∈ T.powE, -2000 ≤ e := by
  have h : (T.powF.all fun y => decide (y < 2 ^ 64)) = true ∧
    ((T.powE.map (fun e => (e + 2000).toNat)).all fun y => decide (y < 2 ^ 64)) = true ∧
    (T.powE.all fun e => decide (-2000 ≤ e)) = true := by cases T <;> decide +kernel
  simpa only [List.all_eq_true, decide_eq_true_eq] using h

theorem unpack_cached {T : FloatType} {k : Int} {c : DiyFp} (h : cachedPower T k = .ok c) :
    unpack (packF T) (T.pow0Offset + k).toNat = c.f ∧
    (unpack (packE T) (T.pow0Offset + k).toNat : Int) = c.e + 2000 := by
  obtain ⟨s1, s2, s3⟩ := tables_small T
  unfold cachedPower at h
  by_cases hk : k ≥ -(T.pow0Offset : Int)
  · rw [assertM_true (by simpa using hk), ok_bind] at h
    dsimp only at h
    generalize (T.pow0Offset + k).toNat = i at *
    cases hF : T.powF[i]? with
    | none => rw [hF] at h; exact absurd h (by simp)
    | some f =>
      cases hE : T.powE[i]? with
      | none => rw [hF, hE] at h; exact absurd h (by simp)
      | some e =>
        rw [hF, hE] at h
        have hc : c = ⟨f, e⟩ := by
          have : (Except.ok (⟨f, e⟩ : DiyFp) : M DiyFp) = .ok c := h
          exact (Except.ok.inj this).symm
        subst hc
        refine ⟨unpack_pack _ _ _ s1 hF, ?_⟩
        have : unpack (packE T) i = (e + 2000).toNat :=
          unpack_pack _ _ _ s2 (by rw [List.getElem?_map, hE]; rfl)
        rw [this]
        have := s3 e (List.mem_of_getElem? hE)
        show ((e + 2000).toNat : Int) = e + 2000
        omega
  · rw [decide_eq_false hk] at h
    exact absurd h (by simp [assertM, bind, Except.bind])

/-- For the numbers `f * 2^(emin + st)`, `2^t < f < 2^(t+1)`: an upper bound for how many of
them have a multiple of a certain `10^κ` within the rounding interval but so close to its end
that it may be missed. -/
def blockCount (T : FloatType) (PF PE : Nat) (t st : Nat) : Option Nat :=
  force (T.W - 2 - t) fun J =>
  match emin T + st - 1 - J + 2000 with
  | .negSucc _ => none
  | .ofNat E => force E fun E =>
  match kCompExp T.alpha ((E : Int) - 2000) + 2000 with
  | .negSucc _ => none
  | .ofNat mk => force mk fun mk =>
  force (unpack PF (T.pow0Offset + mk - 2000)) fun cf =>
  force (unpack PE (T.pow0Offset + mk - 2000)) fun ce =>
  force (5 ^ (mk - 2000) * 2 ^ (mk - ce)) fun X =>
  force (5 ^ (2000 - mk) * 2 ^ (ce - mk)) fun Y =>
  force (2 ^ 20 * (3 * 2 ^ (T.W - 1) * Y + 2 ^ T.W * (X - cf * Y)) / X + 1) fun P =>
  force (2 ^ 20 * (3 * 2 ^ (T.W - 1) * Y + 2 ^ T.W * (cf * Y - X)) / X + 1) fun Q =>
  force ((E + J + 1) * 1233 / 4096 + 1) fun κ =>
  force (if 5 ^ (κ - 602) * 2 ^ (κ + 1418 - E) ≤
      10 * (2 ^ (J + 21) - P - Q) * (5 ^ (602 - κ) * 2 ^ (E - (κ + 1418))) then κ else κ - 1) fun κ =>
  force (5 ^ (κ - 602) * 2 ^ (κ + 1418 - E)) fun m =>
  force (5 ^ (602 - κ) * 2 ^ (E - (κ + 1418))) fun u =>
  if P + Q ≤ 2 ^ (J + 21) ∧ m ≤ 10 * (2 ^ (J + 21) - P - Q) * u ∧ (P + Q) * u ≤ m then
    countMod 200 (2 ^ t) m (2 ^ (J + 21) * u)
      ((2 ^ (t + 1) + 1) * 2 ^ (J + 20) * u + (Q * u - 1)) ((P + Q) * u - 1)
  else none

/-- The sum over the exponents from `st` on, with one more for each. -/
def blockSum (T : FloatType) (PF PE : Nat) (t : Nat) : (n st acc : Nat) → Option Nat
  | 0, _, acc => some acc
  | n + 1, st, acc =>
    match blockCount T PF PE t st with
    | none => none
    | some c => force (acc + c + 1) fun acc => force (st + 1) fun st => blockSum T PF PE t n st acc

def normalSum (T : FloatType) (n st : Nat) : Option Nat :=
  force (packF T) fun PF => force (packE T) fun PE => blockSum T PF PE (T.p - 1) n st 0

/-- What the count of a block stands for. -/
theorem blockCount_spec {T : FloatType} {t st n : Nat} (h : blockCount T (packF T) (packE T) t st = some n) :
    ∃ (J : Nat) (E κ : Int) (m u P Q : Nat), J = T.W - 2 - t ∧ E = emin T + st - 1 - J ∧
      (∀ c, cachedPower T (kCompExp T.alpha E) = .ok c →
        (3 * 2 ^ (T.W - 1) * 2 ^ c.e : ℚ) ≤ P / 2 ^ 20 * 10 ^ kCompExp T.alpha E ∧
        3 * 2 ^ (T.W - 1) * 2 ^ c.e + 2 ^ T.W * (10 ^ kCompExp T.alpha E - c.f * 2 ^ c.e) ≤
          (P / 2 ^ 20 : ℚ) * 10 ^ kCompExp T.alpha E ∧
        (3 * 2 ^ (T.W - 1) * 2 ^ c.e : ℚ) ≤ Q / 2 ^ 20 * 10 ^ kCompExp T.alpha E ∧
        3 * 2 ^ (T.W - 1) * 2 ^ c.e + 2 ^ T.W * (c.f * 2 ^ c.e - 10 ^ kCompExp T.alpha E) ≤
          (Q / 2 ^ 20 : ℚ) * 10 ^ kCompExp T.alpha E) ∧
      0 < m ∧ 0 < u ∧ 0 < P ∧ 0 < Q ∧ (m : ℚ) * 2 ^ E = 10 ^ κ * 2 ^ 20 * u ∧
      P + Q ≤ 2 ^ (J + 21) ∧ m ≤ 10 * (2 ^ (J + 21) - P - Q) * u ∧ (P + Q) * u ≤ m ∧
      n = ((Finset.range (2 ^ t)).filter (fun i =>
        (2 ^ (J + 21) * u * i + ((2 ^ (t + 1) + 1) * 2 ^ (J + 20) * u + (Q * u - 1))) % m <
          (P + Q) * u - 1)).card := by
  unfold blockCount at h
  simp only [force_eq] at h
  generalize hJ : T.W - 2 - t = J at h
  generalize hE : emin T + st - 1 - J + 2000 = z at h
  rcases z with E' | z
  swap
  · simp at h
  simp only at h
  have hEE : emin T + st - 1 - J = (E' : Int) - 2000 := by
    have : (Int.ofNat E' : Int) = E' := rfl
    omega
  generalize hM : kCompExp T.alpha ((E' : Int) - 2000) + 2000 = z at h
  rcases z with mk | z
  swap
  · simp at h
  simp only at h
  have hmk : kCompExp T.alpha ((E' : Int) - 2000) = (mk : Int) - 2000 := by
    have : (Int.ofNat mk : Int) = mk := rfl
    omega
  have hidx : T.pow0Offset + mk - 2000 = ((T.pow0Offset : Int) + ((mk : Int) - 2000)).toNat := by omega
  have hun := fun c => unpack_cached (T := T) (k := (mk : Int) - 2000) (c := c)
  rw [← hidx] at hun
  generalize unpack (packF T) (T.pow0Offset + mk - 2000) = cf at *
  generalize unpack (packE T) (T.pow0Offset + mk - 2000) = ce at *
  set X := 5 ^ (mk - 2000) * 2 ^ (mk - ce) with hX
  set Y := 5 ^ (2000 - mk) * 2 ^ (ce - mk) with hY
  have hX0 : 0 < X := by positivity
  set P := 2 ^ 20 * (3 * 2 ^ (T.W - 1) * Y + 2 ^ T.W * (X - cf * Y)) / X + 1 with hP
  set Q := 2 ^ 20 * (3 * 2 ^ (T.W - 1) * Y + 2 ^ T.W * (cf * Y - X)) / X + 1 with hQ
  generalize (if 5 ^ ((E' + J + 1) * 1233 / 4096 + 1 - 602) * 2 ^ ((E' + J + 1) * 1233 / 4096 + 1 + 1418 - E') ≤
      10 * (2 ^ (J + 21) - P - Q) * (5 ^ (602 - ((E' + J + 1) * 1233 / 4096 + 1)) *
        2 ^ (E' - ((E' + J + 1) * 1233 / 4096 + 1 + 1418))) then (E' + J + 1) * 1233 / 4096 + 1
      else (E' + J + 1) * 1233 / 4096 + 1 - 1) = κ at h
  set m := 5 ^ (κ - 602) * 2 ^ (κ + 1418 - E') with hm
  set u := 5 ^ (602 - κ) * 2 ^ (E' - (κ + 1418)) with hu
  have hm0 : 0 < m := by positivity
  have hu0 : 0 < u := by positivity
  have hP0 : 0 < P := Nat.succ_pos _
  have hQ0 : 0 < Q := Nat.succ_pos _
  split_ifs at h with hc
  obtain ⟨hc1, hc2, hc3⟩ := hc
  refine ⟨J, (E' : Int) - 2000, (κ : Int) - 602, m, u, P, Q, rfl, hEE.symm, ?_, hm0, hu0, hP0, hQ0, ?_, hc1, hc2, hc3,
    countMod_eq _ _ _ _ _ _ _ hm0 (by omega) h⟩
  · intro c hcp
    rw [hmk] at hcp ⊢
    obtain ⟨u1, u2⟩ := hun c hcp
    subst u1
    have hce : c.e = (ce : Int) - 2000 := by omega
    -- X / Y is the ratio of the power of ten to the unit of its approximation
    have hXY : (X : ℚ) * 2 ^ c.e = 10 ^ ((mk : Int) - 2000) * Y := by
      rw [hX, hY, hce, show (10 : ℚ) = 5 * 2 by norm_num, mul_zpow]
      push_cast
      rw [← zpow_natCast, ← zpow_natCast, ← zpow_natCast, ← zpow_natCast]
      have e5 : (5 : ℚ) ^ ((mk - 2000 : Nat) : Int) = 5 ^ ((mk : Int) - 2000) * 5 ^ ((2000 - mk : Nat) : Int) := by
        rw [← zpow_add₀ (by norm_num)]; exact congrArg _ (by omega)
      have e2 : (2 : ℚ) ^ ((mk - ce : Nat) : Int) * 2 ^ ((ce : Int) - 2000) =
          2 ^ ((mk : Int) - 2000) * 2 ^ ((ce - mk : Nat) : Int) := by
        rw [← zpow_add₀ (by norm_num), ← zpow_add₀ (by norm_num)]; exact congrArg _ (by omega)
      rw [e5]
      calc _ = (5 : ℚ) ^ ((mk : Int) - 2000) * 5 ^ ((2000 - mk : Nat) : Int) *
            (2 ^ ((mk - ce : Nat) : Int) * 2 ^ ((ce : Int) - 2000)) := by ring
        _ = _ := by rw [e2]; ring
    have key : ∀ (Z R : Nat), R = 2 ^ 20 * (3 * 2 ^ (T.W - 1) * Y + 2 ^ T.W * Z) / X + 1 →
        ∀ z : ℚ, z * X ≤ Z * 10 ^ ((mk : Int) - 2000) →
        3 * 2 ^ (T.W - 1) * 2 ^ c.e + 2 ^ T.W * z ≤ (R / 2 ^ 20 : ℚ) * 10 ^ ((mk : Int) - 2000) := by
      intro Z R hR z hz
      have h1 : 2 ^ 20 * (3 * 2 ^ (T.W - 1) * Y + 2 ^ T.W * Z) ≤ R * X := by
        rw [hR]
        have := Nat.div_add_mod (2 ^ 20 * (3 * 2 ^ (T.W - 1) * Y + 2 ^ T.W * Z)) X
        have := Nat.mod_lt (2 ^ 20 * (3 * 2 ^ (T.W - 1) * Y + 2 ^ T.W * Z)) hX0
        rw [add_mul, one_mul, mul_comm (_ / X)]
        omega
      have h2 : (2 ^ 20 * (3 * 2 ^ (T.W - 1) * Y + 2 ^ T.W * Z) : ℚ) ≤ R * X := by exact_mod_cast h1
      have hXq : (0 : ℚ) < X := by exact_mod_cast hX0
      have ht : (0 : ℚ) < 10 ^ ((mk : Int) - 2000) := by positivity
      generalize (10 : ℚ) ^ ((mk : Int) - 2000) = tt at *
      have h3 := mul_le_mul_of_nonneg_right h2 ht.le
      have h4 : (3 * 2 ^ (T.W - 1) * 2 ^ c.e + 2 ^ T.W * z) * X ≤ (R / 2 ^ 20 : ℚ) * tt * X := by
        calc (3 * 2 ^ (T.W - 1) * 2 ^ c.e + 2 ^ T.W * z) * X
            = 3 * 2 ^ (T.W - 1) * (X * 2 ^ c.e) + 2 ^ T.W * (z * X) := by ring
          _ ≤ 3 * 2 ^ (T.W - 1) * (tt * Y) + 2 ^ T.W * (Z * tt) := by
              rw [hXY]
              have : (0 : ℚ) ≤ 2 ^ T.W := by positivity
              have := mul_le_mul_of_nonneg_left hz this
              linarith
          _ = (2 ^ 20 * (3 * 2 ^ (T.W - 1) * Y + 2 ^ T.W * Z)) * tt / 2 ^ 20 := by ring
          _ ≤ R * X * tt / 2 ^ 20 := div_le_div_of_nonneg_right h3 (by positivity)
          _ = _ := by ring
      exact le_of_mul_le_mul_right h4 hXq
    have ht0 : (0 : ℚ) ≤ 10 ^ ((mk : Int) - 2000) := by positivity
    have z0 : ∀ Z : Nat, (0 : ℚ) * X ≤ Z * 10 ^ ((mk : Int) - 2000) := by
      intro Z; rw [zero_mul]; exact mul_nonneg (Nat.cast_nonneg _) ht0
    have hge1 : ((X : ℚ) - c.f * Y) ≤ ((X - c.f * Y : Nat) : ℚ) := by
      have : (X : ℚ) ≤ ((X - c.f * Y : Nat) : ℚ) + ((c.f * Y : Nat) : ℚ) := by
        exact_mod_cast (le_tsub_add : X ≤ X - c.f * Y + c.f * Y)
      push_cast at this ⊢
      linarith
    have hge2 : ((c.f : ℚ) * Y - X) ≤ ((c.f * Y - X : Nat) : ℚ) := by
      have : ((c.f * Y : Nat) : ℚ) ≤ ((c.f * Y - X : Nat) : ℚ) + (X : ℚ) := by
        exact_mod_cast (le_tsub_add : c.f * Y ≤ c.f * Y - X + X)
      push_cast at this ⊢
      linarith
    have k1 := key _ P hP 0 (z0 _)
    have k3 := key _ Q hQ 0 (z0 _)
    rw [mul_zero, add_zero] at k1 k3
    refine ⟨k1, key _ P hP _ ?_, k3, key _ Q hQ _ ?_⟩
    · calc (10 ^ ((mk : Int) - 2000) - c.f * 2 ^ c.e) * (X : ℚ)
          = 10 ^ ((mk : Int) - 2000) * X - c.f * (X * 2 ^ c.e) := by ring
        _ = (X - c.f * Y) * 10 ^ ((mk : Int) - 2000) := by rw [hXY]; ring
        _ ≤ _ := mul_le_mul_of_nonneg_right hge1 ht0
    · calc (c.f * 2 ^ c.e - 10 ^ ((mk : Int) - 2000)) * (X : ℚ)
          = c.f * (X * 2 ^ c.e) - 10 ^ ((mk : Int) - 2000) * X := by ring
        _ = (c.f * Y - X) * 10 ^ ((mk : Int) - 2000) := by rw [hXY]; ring
        _ ≤ _ := mul_le_mul_of_nonneg_right hge2 ht0
  · rw [hm, hu, show (10 : ℚ) = 5 * 2 by norm_num, mul_zpow]
    push_cast
    rw [← zpow_natCast (5 : ℚ) (κ - 602), ← zpow_natCast (5 : ℚ) (602 - κ), ← zpow_natCast (2 : ℚ) (κ + 1418 - E'),
      ← zpow_natCast (2 : ℚ) (E' - (κ + 1418)), ← zpow_natCast (2 : ℚ) 20]
    have e5 : (5 : ℚ) ^ ((κ - 602 : Nat) : Int) = 5 ^ ((κ : Int) - 602) * 5 ^ ((602 - κ : Nat) : Int) := by
      rw [← zpow_add₀ (by norm_num)]; exact congrArg _ (by omega)
    have e2 : (2 : ℚ) ^ ((κ + 1418 - E' : Nat) : Int) * 2 ^ ((E' : Int) - 2000) =
        2 ^ ((κ : Int) - 602) * 2 ^ ((20 : Nat) : Int) * 2 ^ ((E' - (κ + 1418) : Nat) : Int) := by
      rw [← zpow_add₀ (by norm_num), ← zpow_add₀ (by norm_num), ← zpow_add₀ (by norm_num)]; exact congrArg _ (by omega)
    rw [e5]
    calc _ = (5 : ℚ) ^ ((κ : Int) - 602) * 5 ^ ((602 - κ : Nat) : Int) *
          (2 ^ ((κ + 1418 - E' : Nat) : Int) * 2 ^ ((E' : Int) - 2000)) := by ring
      _ = _ := by rw [e2]; ring

/-- The multiple of `m` is at most `P` below or less than `Q` above a point: the window. -/
theorem window_of {x m n P Q : Nat} (hPQ : P + Q ≤ m) (hQ : 0 < Q) (hP : 0 < P)
    (h : n * m ≤ x ∧ x < n * m + P ∨ x ≤ n * m ∧ n * m < x + Q) : (x + (Q - 1)) % m < P + Q - 1 := by
  have e : x + (Q - 1) = (x + (Q - 1) - n * m) + m * n := by rw [mul_comm m n]; omega
  rw [e, Nat.add_mul_mod_self_left, Nat.mod_eq_of_lt (by omega)]
  omega

/-- A multiple of `m` close below the half-way point above `f`. -/
def NearUpper (m u J P f : Nat) : Prop :=
  ∃ n, (2 * f + 1) * 2 ^ (J + 20) * u < n * m + P * u ∧
    (n * m < (2 * f + 1) * 2 ^ (J + 20) * u ∨ n * m = (2 * f + 1) * 2 ^ (J + 20) * u ∧ f % 2 = 0)

/-- A multiple of `m` close above the half-way point below `f`. -/
def NearLower (m u J Q f : Nat) : Prop :=
  ∃ n, n * m < (2 * f - 1) * 2 ^ (J + 20) * u + Q * u ∧
    ((2 * f - 1) * 2 ^ (J + 20) * u < n * m ∨ (2 * f - 1) * 2 ^ (J + 20) * u = n * m ∧ f % 2 = 0)

open Classical in
/-- Each half-way point spoils one number at most. -/
theorem near_card (t m u J P Q : Nat) (hm : 0 < m) (hu : 0 < u) (hP : 0 < P) (hQ : 0 < Q)
    (hPQ : (P + Q) * u ≤ m) :
    ((Finset.range (2 ^ (t + 1))).filter (fun f => 2 ^ t < f ∧ (NearUpper m u J P f ∨ NearLower m u J Q f))).card ≤
      ((Finset.range (2 ^ t)).filter (fun i =>
        (2 ^ (J + 21) * u * i + ((2 ^ (t + 1) + 1) * 2 ^ (J + 20) * u + (Q * u - 1))) % m <
          (P + Q) * u - 1)).card := by
  have hPu : 0 < P * u := by positivity
  have hQu : 0 < Q * u := by positivity
  rw [add_mul] at hPQ
  have h2t : 2 ^ (t + 1) = 2 * 2 ^ t := by rw [pow_succ]; ring
  have hmu : ∀ i : Nat, 2 ^ (J + 21) * u * i + ((2 ^ (t + 1) + 1) * 2 ^ (J + 20) * u + (Q * u - 1)) =
      (2 * (2 ^ t + i) + 1) * 2 ^ (J + 20) * u + (Q * u - 1) := by
    intro i
    rw [← add_assoc]
    congr 1
    rw [show J + 21 = (J + 20) + 1 by omega, pow_succ 2 (J + 20), h2t]
    ring
  apply Finset.card_le_card_of_injOn (fun f => if NearUpper m u J P f then f - 2 ^ t else f - 1 - 2 ^ t)
  · intro f hf
    simp only [Finset.coe_filter, Set.mem_ofPred_eq, Finset.mem_range] at hf
    obtain ⟨f1, f2, f3⟩ := hf
    simp only [Finset.coe_filter, Set.mem_ofPred_eq, Finset.mem_range]
    rw [hmu, add_mul P Q u]
    clear hmu
    split_ifs with hU
    · refine ⟨by omega, ?_⟩
      rw [show 2 ^ t + (f - 2 ^ t) = f by omega]
      obtain ⟨n, n1, n2⟩ := hU
      generalize (2 * f + 1) * 2 ^ (J + 20) * u = x at *
      generalize P * u = p at *
      generalize Q * u = q at *
      exact window_of hPQ hQu hPu (n := n) (Or.inl ⟨n2.elim le_of_lt fun h => h.1.le, n1⟩)
    · refine ⟨by omega, ?_⟩
      rw [show 2 * (2 ^ t + (f - 1 - 2 ^ t)) + 1 = 2 * f - 1 by omega]
      obtain ⟨n, n1, n2⟩ := f3.resolve_left hU
      generalize (2 * f - 1) * 2 ^ (J + 20) * u = x at *
      generalize P * u = p at *
      generalize Q * u = q at *
      exact window_of hPQ hQu hPu (n := n) (Or.inr ⟨n2.elim le_of_lt fun h => h.1.le, n1⟩)
  · have hclash : ∀ f g : Nat, 2 ^ t < f → NearUpper m u J P f → NearLower m u J Q g → g = f + 1 → False := by
      rintro f g hf ⟨n, n1, n2⟩ ⟨n', n3, n4⟩ rfl
      rw [show 2 * (f + 1) - 1 = 2 * f + 1 by omega] at n3 n4
      generalize (2 * f + 1) * 2 ^ (J + 20) * u = x at *
      have hle : n * m ≤ n' * m := by omega
      have hlt : n' * m < (n + 1) * m := by rw [add_mul, one_mul]; omega
      have e1 : n ≤ n' := Nat.le_of_mul_le_mul_right hle hm
      have e2 : n' < n + 1 := Nat.lt_of_mul_lt_mul_right hlt
      have e3 : n = n' := by omega
      subst e3
      omega
    intro f hf g hg he
    simp only [Finset.coe_filter, Set.mem_ofPred_eq, Finset.mem_range] at hf hg
    obtain ⟨f1, f2, f3⟩ := hf
    obtain ⟨g1, g2, g3⟩ := hg
    simp only at he
    split_ifs at he with hU hV hV
    · omega
    · exact (hclash f g f2 hU (g3.resolve_left hV) (by omega)).elim
    · exact (hclash g f g2 hV (f3.resolve_left hU) (by omega)).elim
    · omega

end Floaxie
