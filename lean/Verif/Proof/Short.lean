import Verif.Proof.Grisu
import Verif.Spec.Shortest

/-! # The digits generated are the shortest of the scaled interval -/

namespace Floaxie

open FloatType Spec

/-- Fractional digits: the loop stops at the first opportunity. -/
theorem genFrac_min (T : FloatType) (s : Nat) (hs : s + 4 ≤ T.W) :
    ∀ (m fuel p2 delta kappa : Nat), m < fuel → p2 < 2 ^ s → 2 ^ s ≤ delta * 10 ^ m →
      kappa + m < 256 →
      ∃ ds : List (Fin 10), ds.length ≤ m ∧ (delta < p2 → ds ≠ []) ∧
        (∀ j < ds.length, delta * 10 ^ j < p2 * 10 ^ j % 2 ^ s) ∧
        ∀ (o : Nat) (pre rest : List Nat) (len : Nat), pre.length = o + len →
          ds.length ≤ rest.length → genFracLoop T o s (2 ^ s) true fuel p2 delta (pre ++ rest) len kappa =
            .ok (pre ++ ds.map digitChar ++ rest.drop ds.length, len + ds.length,
              kappa + ds.length) := by
  intro m
  induction m with
  | zero =>
    intro fuel p2 delta kappa hf hp hd hk
    obtain ⟨fuel, rfl⟩ : ∃ m, fuel = m + 1 := ⟨fuel - 1, by omega⟩
    simp at hd
    refine ⟨[], by simp, by omega, by simp, ?_⟩
    intro o pre rest len _ _
    unfold genFracLoop
    rw [if_neg (by omega)]; simp
  | succ m ih =>
    intro fuel p2 delta kappa hf hp hd hk
    obtain ⟨fuel, rfl⟩ : ∃ m, fuel = m + 1 := ⟨fuel - 1, by omega⟩
    by_cases hle : p2 ≤ delta
    · refine ⟨[], by simp, by omega, by simp, ?_⟩
      intro o pre rest len _ _
      unfold genFracLoop
      rw [if_neg (by omega)]; simp
    · have hW : 2 ^ s * 16 ≤ 2 ^ T.W := by
        calc 2 ^ s * 16 = 2 ^ (s + 4) := by rw [pow_add]; norm_num
          _ ≤ _ := Nat.pow_le_pow_right (by norm_num) hs
      have hpos : 0 < 2 ^ s := by positivity
      have e1 : p2 * 10 % 2 ^ T.W = p2 * 10 := Nat.mod_eq_of_lt (by omega)
      have e2 : delta * 10 % 2 ^ T.W = delta * 10 := Nat.mod_eq_of_lt (by omega)
      have hdig : p2 * 10 / 2 ^ s < 10 := by rw [Nat.div_lt_iff_lt_mul hpos]; omega
      obtain ⟨ds, g1, g2, g3, g6⟩ := ih fuel (p2 * 10 % 2 ^ s) (delta * 10) (kappa + 1)
        (by omega) (Nat.mod_lt _ hpos) (by rw [pow_succ'] at hd; rw [mul_assoc]; exact hd) (by omega)
      refine ⟨⟨p2 * 10 / 2 ^ s, hdig⟩ :: ds, by simp; omega, by simp, ?_, ?_⟩
      · intro j hj
        rcases j with _ | j
        · simp only [pow_zero, mul_one]; rw [Nat.mod_eq_of_lt hp]; omega
        · have := g3 j (by simp at hj; omega)
          rw [Nat.mod_mul_mod] at this
          rw [pow_succ', ← mul_assoc, ← mul_assoc]; exact this
      · intro o pre rest len hpre hrest
        simp only [List.length_cons] at hrest
        have hr : rest ≠ [] := by intro h; subst h; simp at hrest
        unfold genFracLoop
        rw [if_pos (by omega)]
        simp only [e1, e2, Bool.true_or, if_true]
        rw [Nat.shiftRight_eq_div_pow, Nat.mod_eq_of_lt (show p2 * 10 / 2 ^ s < 256 by omega),
          wr_append hpre hr, ok_bind, pure_bind']
        have e : pre ++ ('0'.toNat + p2 * 10 / 2 ^ s) :: rest.drop 1 =
          (pre ++ [digitChar ⟨p2 * 10 / 2 ^ s, hdig⟩]) ++ rest.drop 1 := by simp [digitChar]
        simp only
        rw [e, Nat.and_two_pow_sub_one_eq_mod, Nat.mod_eq_of_lt (show kappa + 1 < 256 by omega),
          g6 _ _ _ _ (by simp; omega) (by simp; omega)]
        simp only [List.map_cons, List.length_cons, List.drop_drop, List.append_assoc,
          List.cons_append, List.nil_append]
        rw [show len + 1 + ds.length = len + (ds.length + 1) by ring,
          show kappa + 1 + ds.length = kappa + (ds.length + 1) by ring,
          show 1 + ds.length = ds.length + 1 by ring]

theorem digitsVal_mod_ten (ds : List (Fin 10)) (h : ds ≠ []) :
    digitsVal ds % 10 = (ds.getLast h).val := by
  obtain ⟨l, d, rfl⟩ : ∃ l d, ds = l ++ [d] := ⟨_, _, (List.dropLast_append_getLast h).symm⟩
  rw [digitsVal_append]
  simp [digitsVal_cons]

/-- `digit_gen`: when the interval is shorter than the unit of the integral part,
no multiple of a larger power of ten lies in `[M-, M+]`. -/
theorem digitGen_max (T : FloatType) (Mp Mm : DiyFp) (s κ m : Nat)
    (hs1 : Mp.e = -(s : Int)) (hs2 : Mm.e = -(s : Int)) (hsW : s + 4 ≤ T.W) (hsW2 : T.W ≤ s + 32)
    (hMp : Mp.f < 2 ^ T.W) (hlt : Mm.f ≤ Mp.f) (hdel : Mp.f - Mm.f < 2 ^ s)
    (hκ1 : 10 ^ κ * 2 ^ s ≤ Mp.f) (hκ2 : Mp.f < 10 ^ (κ + 1) * 2 ^ s)
    (hκ3 : κ < 10)
    (hm : 2 ^ s ≤ (Mp.f - Mm.f) * 10 ^ m) (hm2 : m ≤ T.W) (hm3 : T.W < 256) :
    ∃ (dl : Nat) (dg : List Nat) (k : Int), dl ≤ κ + 1 + m ∧
      (∀ (n : Nat) (k' : Int), k < k' → ¬ ((Mm.f : ℚ) ≤ n * 10 ^ k' * 2 ^ s ∧
        (n * 10 ^ k' * 2 ^ s : ℚ) ≤ Mp.f)) ∧
      ∀ (K : Int) (rest : List Nat), dl ≤ rest.length →
        digitGen T Mp Mm rest 0 K = .ok (dg ++ rest.drop dl, dl, K + k) := by
  have h2s : 0 < 2 ^ s := by positivity
  have h2sq : (0 : ℚ) < 2 ^ s := by positivity
  have hp1κ1 : 10 ^ κ ≤ Mp.f / 2 ^ s := by rw [Nat.le_div_iff_mul_le h2s]; exact hκ1
  have hp1κ2 : Mp.f / 2 ^ s < 10 ^ (κ + 1) := by rw [Nat.div_lt_iff_lt_mul h2s]; exact hκ2
  have hp1ne : Mp.f / 2 ^ s ≠ 0 := by have : 0 < 10 ^ κ := by positivity
                                      omega
  have hp1lt : Mp.f / 2 ^ s < 10 ^ 10 :=
    lt_of_lt_of_le hp1κ2 (Nat.pow_le_pow_right (by norm_num) (by omega))
  obtain ⟨κ', hkd, hk1, hk2⟩ := kappaDiv_ok _ hp1ne hp1lt
  have hκκ : κ' = κ := by
    have h1 : κ' < κ + 1 := (Nat.pow_lt_pow_iff_right (by norm_num : 1 < 10)).mp (lt_of_le_of_lt hk1 hp1κ2)
    have h2 : κ < κ' + 1 := (Nat.pow_lt_pow_iff_right (by norm_num : 1 < 10)).mp (lt_of_le_of_lt hp1κ1 hk2)
    omega
  subst hκκ
  have hp132 : Mp.f / 2 ^ s % 2 ^ 32 = Mp.f / 2 ^ s := by
    apply Nat.mod_eq_of_lt
    rw [Nat.div_lt_iff_lt_mul h2s, ← pow_add]
    exact lt_of_lt_of_le hMp (Nat.pow_le_pow_right (by norm_num) (by omega))
  obtain ⟨ds, k', g1, g2, g3, g4, g5⟩ := genInt_ok (κ' + 1) (Mp.f / 2 ^ s) (10 ^ κ') hk2
    (by intro _; rfl)
  obtain ⟨hne, hhead⟩ := g4 (by omega) hk1
  have hdm := Nat.div_add_mod' Mp.f (2 ^ s)
  have hmodlt := Nat.mod_lt Mp.f h2s
  have hdelta : ∃ d, Mp.sub T.W Mm = .ok d ∧ d.f = Mp.f - Mm.f := by
    refine ⟨{ Mp with f := Mp.f - Mm.f }, ?_, rfl⟩
    unfold DiyFp.sub
    rw [assertM_true (by simp [hs1, hs2, hlt]), ok_bind]
    simp only [pure, Except.pure, Except.ok.injEq, DiyFp.mk.injEq, and_true]
    rw [show Mp.f + 2 ^ T.W - Mm.f = (Mp.f - Mm.f) + 2 ^ T.W by omega, Nat.add_mod_right,
      Nat.mod_eq_of_lt (by omega)]
  obtain ⟨dl, hdl1, hdl2⟩ := hdelta
  have hstart : ∀ (K : Int) (o : Nat) (buf : List Nat), digitGen T Mp Mm buf o K = (do
      let (buf, len, kappa) ← genIntLoop o (κ' + 1) (10 ^ κ') (Mp.f / 2 ^ s) buf 0
      if Mp.f % 2 ^ s ≤ Mp.f - Mm.f then pure (buf, len, K + (kappa : Nat))
      else do
        let buf ← memset buf (o + len) '0'.toNat kappa
        let len := len + kappa
        let (buf, len, kappa) ←
          genFracLoop T o s (2 ^ s) (decide (len > 0)) (T.W + 1) (Mp.f % 2 ^ s) (Mp.f - Mm.f) buf len 0
        pure (buf, len, K - (kappa : Nat))) := by
    intro K o buf
    unfold digitGen
    rw [assertM_true (by simp [hs1]), ok_bind, hdl1, ok_bind]
    have hsn : (-Mp.e).toNat = s := by rw [hs1]; simp
    have hrb : raisedBit T.W s = .ok (2 ^ s) := by
      unfold raisedBit; rw [if_pos (by omega), one_shl]
    simp only [hsn, hrb, ok_bind, Nat.shiftRight_eq_div_pow, hp132, Nat.and_two_pow_sub_one_eq_mod,
      hdl2, hkd]
    rw [assertM_true (by
      have : (Mp.f / 2 ^ s != 0) = true := by simpa using hp1ne
      rw [this]; rfl), ok_bind, if_pos hp1ne]
    by_cases hc : Mp.f % 2 ^ s ≤ Mp.f - Mm.f <;> simp [hc]
  by_cases hc : Mp.f % 2 ^ s ≤ Mp.f - Mm.f
  · refine ⟨ds.length, ds.map digitChar, (k' : Int), by omega, ?_, ?_⟩
    · rintro n k hk ⟨h1, h2⟩
      obtain ⟨j, rfl⟩ : ∃ j : Nat, k = (k' + 1 + j : Nat) := ⟨(k - (k' + 1)).toNat, by push_cast; omega⟩
      rw [zpow_natCast] at h1 h2
      have h1' : Mm.f ≤ n * 10 ^ (k' + 1 + j) * 2 ^ s := by exact_mod_cast h1
      have h2' : n * 10 ^ (k' + 1 + j) * 2 ^ s ≤ Mp.f := by exact_mod_cast h2
      generalize hN : n * 10 ^ (k' + 1 + j) = N at h1' h2'
      have hNe : N = Mp.f / 2 ^ s := by
        apply le_antisymm
        · rw [Nat.le_div_iff_mul_le h2s]; exact h2'
        · apply Nat.le_of_lt_succ
          rw [Nat.div_lt_iff_lt_mul h2s, Nat.succ_mul]
          omega
      rw [← g2] at hNe
      have : digitsVal ds = n * 10 ^ j * 10 := by
        have h10 : 0 < 10 ^ k' := by positivity
        apply Nat.eq_of_mul_eq_mul_right h10
        rw [← hNe, ← hN]; ring
      have h3 := digitsVal_mod_ten ds hne
      rw [this, Nat.mul_mod_left] at h3
      exact g3 hne (Fin.ext h3.symm)
    · intro K rest hrest
      have := g5 0 [] rest 0 (by simp) hrest
      rw [List.nil_append] at this
      rw [hstart, this]
      rw [ok_bind]
      simp only [hc, if_true, pure, Except.pure, zero_add, List.nil_append]
  · obtain ⟨es, f1, f4, f2, f6⟩ := genFrac_min T s hsW m (T.W + 1) (Mp.f % 2 ^ s)
      (Mp.f - Mm.f) 0 (by omega) hmodlt hm (by omega)
    have hes : es ≠ [] := f4 (by omega)
    have hel : 0 < es.length := List.length_pos_iff.mpr hes
    refine ⟨κ' + 1 + es.length, (ds ++ List.replicate k' 0 ++ es).map digitChar, -(es.length : Int),
      by omega, ?_, ?_⟩
    · rintro n k hk ⟨h1, h2⟩
      obtain ⟨j, hj⟩ : ∃ j : Nat, es.length = j + 1 := ⟨es.length - 1, by omega⟩
      obtain ⟨i, rfl⟩ : ∃ i : Nat, k = (i : Int) - j := ⟨(k + j).toNat, by omega⟩
      have h10 : (0 : ℚ) < 10 ^ j := by positivity
      rw [zpow_sub₀ (by norm_num), zpow_natCast, zpow_natCast] at h1 h2
      have h1q : (Mm.f : ℚ) * 10 ^ j ≤ n * 10 ^ i * 2 ^ s := by
        have := mul_le_mul_of_nonneg_right h1 h10.le
        calc _ ≤ _ := this
          _ = _ := by field_simp
      have h2q : (n : ℚ) * 10 ^ i * 2 ^ s ≤ Mp.f * 10 ^ j := by
        have := mul_le_mul_of_nonneg_right h2 h10.le
        calc _ = _ := by field_simp
          _ ≤ _ := this
      have h1' : Mm.f * 10 ^ j ≤ n * 10 ^ i * 2 ^ s := by exact_mod_cast h1q
      have h2' : n * 10 ^ i * 2 ^ s ≤ Mp.f * 10 ^ j := by exact_mod_cast h2q
      have h3 := f2 j (by omega)
      rw [Nat.mod_mul_mod] at h3
      have h4 := Nat.div_add_mod' (Mp.f * 10 ^ j) (2 ^ s)
      have h5 : n * 10 ^ i ≤ Mp.f * 10 ^ j / 2 ^ s := by
        rw [Nat.le_div_iff_mul_le h2s]; exact h2'
      have h6 := Nat.mul_le_mul_right (2 ^ s) h5
      rw [Nat.sub_mul] at h3
      have h7 : Mm.f * 10 ^ j ≤ Mp.f * 10 ^ j := Nat.mul_le_mul_right _ hlt
      omega
    · intro K rest hrest
      have := g5 0 [] rest 0 (by simp) (by omega)
      rw [List.nil_append] at this
      rw [hstart, this, ok_bind]
      simp only [hc, if_false]
      rw [memset_append (by simp) (by simp; omega), ok_bind]
      have hds : 0 < ds.length := List.length_pos_iff.mpr hne
      have hpos : decide (0 + ds.length + k' > 0) = true := by simp; omega
      simp only [hpos]
      rw [f6 _ _ _ _ (by simp) (by simp; omega), ok_bind]
      simp only [pure, Except.pure, Except.ok.injEq, Prod.mk.injEq]
      refine ⟨?_, ?_, ?_⟩
      · simp only [List.map_append, List.map_replicate, List.append_assoc, List.drop_drop,
          List.nil_append]
        have : digitChar 0 = '0'.toNat := rfl
        rw [this]
        congr 4
        omega
      · omega
      · omega

/-- Above the least normal number the lower boundary is the true midpoint. -/
theorem lower_mid_eq (T : FloatType) (a : Nat) (h0 : 2 ^ (T.p - 1) < a) :
    ((N T (a - 1) : ℚ) + N T a) =
      ((sigN T a : ℚ) * 2 ^ bshift T (sigN T a) - 1) *
        (2 ^ (a / 2 ^ (T.p - 1) - 1) * 2 / 2 ^ bshift T (sigN T a)) := by
  have hP1 : 0 < 2 ^ (T.p - 1) := by positivity
  have hN : N T a = N T (a - 1) + ulpN T (a - 1) := by
    have := N_succ T (a - 1); rwa [Nat.sub_add_cancel (by omega)] at this
  have hNa : N T a = sigN T a * 2 ^ (a / 2 ^ (T.p - 1) - 1) := rfl
  have hN' : (N T (a - 1) : ℚ) = N T a - ulpN T (a - 1) := by rw [hN]; push_cast; ring
  rw [hN', hNa]
  have hP0 : 0 < 2 ^ (T.p - 1) := by positivity
  have hE : a / 2 ^ (T.p - 1) ≠ 0 := by
    intro h
    rw [Nat.div_eq_zero_iff] at h
    omega
  have hdm := Nat.div_add_mod' a (2 ^ (T.p - 1))
  have hml := Nat.mod_lt a hP0
  have hsig : sigN T a = 2 ^ (T.p - 1) + a % 2 ^ (T.p - 1) := by
    unfold sigN; rw [if_neg hE]
  unfold bshift
  by_cases hf : sigN T a = 2 ^ (T.p - 1)
  · rw [if_pos hf]
    have hmod : a % 2 ^ (T.p - 1) = 0 := by omega
    have hq2 : 2 ≤ a / 2 ^ (T.p - 1) := by
      by_contra hne
      have : a / 2 ^ (T.p - 1) = 1 := by
        generalize a / 2 ^ (T.p - 1) = q at *
        omega
      rw [this, hmod] at hdm
      omega
    have hq : (a - 1) / 2 ^ (T.p - 1) = a / 2 ^ (T.p - 1) - 1 := by
      apply Nat.div_eq_of_lt_le
      · rw [Nat.sub_mul, one_mul]; omega
      · rw [Nat.sub_add_cancel (by omega)]; omega
    have hu : 2 ^ (a / 2 ^ (T.p - 1) - 1) = 2 * ulpN T (a - 1) := by
      unfold ulpN
      rw [← pow_succ', hq]
      congr 1
      omega
    have hu' : (2 : ℚ) ^ (a / 2 ^ (T.p - 1) - 1) = 2 * ulpN T (a - 1) := by exact_mod_cast hu
    rw [hf]
    push_cast
    rw [hu']
    ring
  · rw [if_neg hf]
    have hmod : a % 2 ^ (T.p - 1) ≠ 0 := by omega
    have hq : (a - 1) / 2 ^ (T.p - 1) = a / 2 ^ (T.p - 1) := by
      apply Nat.div_eq_of_lt_le
      · omega
      · rw [Nat.add_mul, one_mul]; omega
    have hu : 2 ^ (a / 2 ^ (T.p - 1) - 1) = ulpN T (a - 1) := by
      unfold ulpN; rw [hq]
    have hu' : (2 : ℚ) ^ (a / 2 ^ (T.p - 1) - 1) = ulpN T (a - 1) := by exact_mod_cast hu
    push_cast
    rw [hu']
    ring

/-- The same below the least normal number. -/
theorem lower_mid_eq' (T : FloatType) (a : Nat) (h0 : a ≠ 0) (h1 : a ≠ 2 ^ (T.p - 1)) :
    ((N T (a - 1) : ℚ) + N T a) =
      ((sigN T a : ℚ) * 2 ^ bshift T (sigN T a) - 1) *
        (2 ^ (a / 2 ^ (T.p - 1) - 1) * 2 / 2 ^ bshift T (sigN T a)) := by
  rcases lt_or_ge (2 ^ (T.p - 1)) a with h | h
  · exact lower_mid_eq T a h
  · have hlt : a < 2 ^ (T.p - 1) := by omega
    have e1 : a / 2 ^ (T.p - 1) = 0 := Nat.div_eq_of_lt hlt
    have e2 : (a - 1) / 2 ^ (T.p - 1) = 0 := Nat.div_eq_of_lt (by omega)
    have hs : sigN T a = a := by unfold sigN; rw [if_pos e1, Nat.mod_eq_of_lt hlt]
    have hN : N T a = a := by unfold N; rw [if_pos e1, Nat.mod_eq_of_lt hlt, e1]; simp
    have hN' : N T (a - 1) = a - 1 := by
      unfold N; rw [if_pos e2, Nat.mod_eq_of_lt (show a - 1 < _ by omega), e2]; simp
    rw [hN, hN', hs, e1]
    unfold bshift
    rw [if_neg (by omega)]
    push_cast [Nat.cast_sub (show 1 ≤ a by omega)]
    ring

set_option maxHeartbeats 1000000 in
/-- Grisu2 on a value other than the least normal one: unless the digits are few, or if the
value has more than half a word of bits, no multiple of a larger power of ten is well inside
the rounding interval. -/
theorem grisu2_brief' (T : FloatType) (bits : Nat) (hb : bits < 2 ^ T.W)
    (hfin : absPat T bits < posInf T) (h0 : absPat T bits ≠ 0) (hnor : absPat T bits ≠ 2 ^ (T.p - 1)) :
    ∃ (A B : ℚ) (ds : List (Fin 10)) (k : Int), 0 < A ∧
      A ≤ digitsVal ds * 10 ^ k ∧ (digitsVal ds * 10 ^ k : ℚ) ≤ B ∧
      (∀ y : ℚ, (N T (absPat T bits - 1) + N T (absPat T bits) : ℚ) / 2 * 2 ^ emin T +
          ((N T (absPat T bits + 1) - N T (absPat T bits) : ℚ) * 2 ^ emin T) / margin T ≤ y →
        y ≤ (N T (absPat T bits) + N T (absPat T bits + 1) : ℚ) / 2 * 2 ^ emin T -
          ((N T (absPat T bits + 1) - N T (absPat T bits) : ℚ) * 2 ^ emin T) / margin T →
        A ≤ y ∧ y ≤ B) ∧
      (2 ^ (T.W / 2) ≤ absPat T bits ∨ fewDigits T < ds.length →
        ∀ (n : Nat) (k' : Int), k < k' → ¬ (A ≤ n * 10 ^ k' ∧ (n * 10 ^ k' : ℚ) ≤ B)) ∧
      B < (digitsVal ds + 1 : ℕ) * 10 ^ k ∧
      (∃ L, ∀ (rest : List Nat), L ≤ rest.length →
        grisu2 T bits rest 0 =
          .ok (ds.map digitChar ++ rest.drop ds.length, ds.length, k)) ∧
      ∃ (J : Nat) (E : Int) (c : DiyFp),
        E = emin T + ((absPat T bits / 2 ^ (T.p - 1) - 1 : Nat) : Int) - 1 - J ∧
        2 ^ (T.W - 1) ≤ (2 * sigN T (absPat T bits) + 1) * 2 ^ J ∧
        (2 * sigN T (absPat T bits) + 1) * 2 ^ J < 2 ^ T.W ∧
        cachedPower T (kCompExp T.alpha E) = .ok c ∧
        A * 10 ^ kCompExp T.alpha E ≤
          ((((sigN T (absPat T bits) * 2 ^ bshift T (sigN T (absPat T bits)) - 1) *
            2 ^ (J + 1 - bshift T (sigN T (absPat T bits))) : Nat) : ℚ) * c.f + 3 * 2 ^ (T.W - 1)) *
            (2 ^ E * 2 ^ c.e) ∧
        ((((2 * sigN T (absPat T bits) + 1) * 2 ^ J : Nat) : ℚ) * c.f - 3 * 2 ^ (T.W - 1)) *
            (2 ^ E * 2 ^ c.e) ≤ B * 10 ^ kCompExp T.alpha E := by
  have hbig : 2 ^ (T.W / 2) ≤ absPat T bits → 2 ^ (T.W / 2) ≤ sigN T (absPat T bits) := by
    intro h
    have hWp : 2 ^ (T.W / 2) ≤ 2 ^ (T.p - 1) := by cases T <;> decide
    unfold sigN
    split_ifs with h1
    · rw [Nat.div_eq_zero_iff] at h1
      have : 0 < 2 ^ (T.p - 1) := by positivity
      rw [Nat.mod_eq_of_lt (by omega)]; exact h
    · omega
  obtain ⟨J, E, hEdef, hJ, hf0, hfp, hJn, hpl1, hpl2, hE1, hE2, hbd⟩ :=
    boundaries_ok T bits hb hfin h0
  have hlow := lower_mid_eq' T (absPat T bits) h0 hnor
  have hNs := N_succ T (absPat T bits)
  have hNa : N T (absPat T bits) = sigN T (absPat T bits) * ulpN T (absPat T bits) := N_eq _ _
  have hulp : ulpN T (absPat T bits) = 2 ^ (absPat T bits / 2 ^ (T.p - 1) - 1) := rfl
  generalize sigN T (absPat T bits) = f at *
  generalize ha : absPat T bits = a at *
  generalize a / 2 ^ (T.p - 1) - 1 = st at *
  set sh := bshift T f with hshdef
  have hshle : sh ≤ 2 := by rw [hshdef]; unfold bshift; split_ifs <;> omega
  have hshge : 1 ≤ sh := by rw [hshdef]; unfold bshift; split_ifs <;> omega
  obtain ⟨hmk1, hmk2, hmk3, hwin⟩ := kComp_ok T E hE1 hE2
  obtain ⟨c, hc0, hc1, hc2, hc3⟩ := cachedPower_ok T (kCompExp T.alpha E)
    (by revert hmk1; cases T <;> simp only [mkLo, FloatType.powLo] <;> omega)
    (by revert hmk2; cases T <;> simp only [mkHi, FloatType.powHi] <;> omega)
  obtain ⟨hw1, hw2⟩ := hwin c hc0
  generalize hmk : kCompExp T.alpha E = mk at *
  set pl : DiyFp := ⟨(2 * f + 1) * 2 ^ J, E⟩ with hpl
  set mi : DiyFp := ⟨(f * 2 ^ sh - 1) * 2 ^ (J + 1 - sh), E⟩ with hmi
  -- the width of the interval
  have hJ7 : 7 ≤ J := by revert hJ; cases T <;> simp only [FloatType.p, FloatType.W] <;> omega
  have hfs : 0 < f * 2 ^ sh := by positivity
  have hmi2 : mi.f + 2 ^ (J + 1 - sh) = 2 * f * 2 ^ J := by
    show (f * 2 ^ sh - 1) * 2 ^ (J + 1 - sh) + 2 ^ (J + 1 - sh) = _
    calc (f * 2 ^ sh - 1) * 2 ^ (J + 1 - sh) + 2 ^ (J + 1 - sh)
        = (f * 2 ^ sh - 1 + 1) * 2 ^ (J + 1 - sh) := by ring
      _ = f * (2 ^ sh * 2 ^ (J + 1 - sh)) := by rw [Nat.sub_add_cancel hfs]; ring
      _ = f * 2 ^ (J + 1) := by rw [← pow_add, show sh + (J + 1 - sh) = J + 1 by omega]
      _ = _ := by ring
  have hplmi : mi.f + (2 ^ J + 2 ^ (J + 1 - sh)) = pl.f := by
    show _ = (2 * f + 1) * 2 ^ J
    rw [add_comm (2 ^ J), ← add_assoc, hmi2]; ring
  have hmlt : mi.f < 2 ^ T.W := lt_of_le_of_lt (Nat.le.intro hplmi) hpl2
  have hplt : pl.f < 2 ^ T.W := hpl2
  have hp1 := mul_f T pl c hplt hc2
  have hm1 := mul_f T mi c hmlt hc2
  have herrp := mul_err T pl c mk hplt hc2 hc3
  have herrm := mul_err T mi c mk hmlt hc2 hc3
  have hep : (pl.mul T.W c).e = E + c.e + T.W := rfl
  have hem : (mi.mul T.W c).e = E + c.e + T.W := rfl
  obtain ⟨s, hs⟩ : ∃ s : Nat, E + c.e + T.W = -(s : Int) := by
    refine ⟨(-(E + c.e + T.W)).toNat, ?_⟩
    have : T.gamma ≤ 0 := by unfold FloatType.gamma; omega
    omega
  rw [hep, hs] at herrp
  rw [hem, hs] at herrm
  have hsr : T.W / 2 ≤ s ∧ s ≤ T.W / 2 + 3 := by
    unfold FloatType.alpha at hw1; unfold FloatType.gamma at hw2
    omega
  have hW1 : 2 ^ T.W = 2 * 2 ^ (T.W - 1) := by cases T <;> simp [FloatType.W]
  have hW2 : 2 ^ (T.W - 1) = 2 * 2 ^ (T.W - 2) := by cases T <;> simp [FloatType.W]
  have hWpos : 0 < 2 ^ T.W := by positivity
  -- bounds on the products
  have hdmp := Nat.div_add_mod (pl.f * c.f + 2 ^ (T.W - 1)) (2 ^ T.W)
  have hmlp := Nat.mod_lt (pl.f * c.f + 2 ^ (T.W - 1)) hWpos
  have hdmm := Nat.div_add_mod (mi.f * c.f + 2 ^ (T.W - 1)) (2 ^ T.W)
  have hmlm := Nat.mod_lt (mi.f * c.f + 2 ^ (T.W - 1)) hWpos
  rw [← hp1] at hdmp
  rw [← hm1] at hdmm
  have hPge : 2 ^ (T.W - 2) ≤ (pl.mul T.W c).f := by
    have h1 : 2 ^ (T.W - 1) * 2 ^ (T.W - 1) ≤ pl.f * c.f := Nat.mul_le_mul hpl1 hc1
    rw [hp1, Nat.le_div_iff_mul_le hWpos]
    have : 2 ^ (T.W - 2) * 2 ^ T.W = 2 ^ (T.W - 1) * 2 ^ (T.W - 1) := by
      rw [hW1, hW2]; ring
    omega
  have hPlt : (pl.mul T.W c).f < 2 ^ T.W - 1 := by
    rw [hp1, Nat.div_lt_iff_lt_mul hWpos]
    have h1 : pl.f * c.f ≤ (2 ^ T.W - 1) * (2 ^ T.W - 1) := Nat.mul_le_mul (by omega) (by omega)
    have h2 : (2 ^ T.W - 1) * (2 ^ T.W - 1) + (2 ^ T.W - 1) = (2 ^ T.W - 1) * 2 ^ T.W := by
      conv_rhs => rw [show 2 ^ T.W = (2 ^ T.W - 1) + 1 by omega]
      rw [mul_add, mul_one]; rfl
    have h3 : 1 ≤ 2 ^ (T.W - 2) := Nat.one_le_two_pow
    omega
  have hprod : pl.f * c.f = mi.f * c.f + (2 ^ J + 2 ^ (J + 1 - sh)) * c.f := by
    rw [← hplmi]; ring
  have hMle : (mi.mul T.W c).f ≤ (pl.mul T.W c).f := by
    rw [hm1, hp1]; apply Nat.div_le_div_right
    rw [hprod]; omega
  have hgap : (2 ^ J + 2 ^ (J + 1 - sh)) * c.f <
      ((pl.mul T.W c).f - (mi.mul T.W c).f + 1) * 2 ^ T.W := by
    rw [Nat.add_mul ((pl.mul T.W c).f - (mi.mul T.W c).f), Nat.sub_mul, one_mul]
    have : (mi.mul T.W c).f * 2 ^ T.W ≤ (pl.mul T.W c).f * 2 ^ T.W := Nat.mul_le_mul_right _ hMle
    rw [mul_comm] at hdmp hdmm
    omega
  have hPrel : (pl.mul T.W c).f * 2 ^ T.W ≤ pl.f * c.f + 2 ^ (T.W - 1) := by
    rw [mul_comm]; omega
  -- the interval after ++ and --
  set P := (pl.mul T.W c).f with hP
  set Q := (mi.mul T.W c).f with hQ
  have hgapJ : ∀ n : Nat, 2 ^ n ≤ 2 ^ J + 2 ^ (J + 1 - sh) → n ≥ 1 → 2 ^ (n - 1) < P - Q + 1 := by
    intro n hn hn1
    have h1 : 2 ^ n * 2 ^ (T.W - 1) ≤ (2 ^ J + 2 ^ (J + 1 - sh)) * c.f := Nat.mul_le_mul hn hc1
    have h2 : 2 ^ n * 2 ^ (T.W - 1) = 2 ^ (n - 1) * 2 ^ T.W := by
      rw [hW1]
      obtain ⟨n', rfl⟩ : ∃ n', n = n' + 1 := ⟨n - 1, by omega⟩
      rw [pow_succ]; simp; ring
    rw [h2] at h1
    exact Nat.lt_of_mul_lt_mul_right (lt_of_le_of_lt h1 hgap)
  have hgap3 : 3 * 2 ^ (J - 2) < P - Q + 1 := by
    have hn : 3 * 2 ^ (J - 1) ≤ 2 ^ J + 2 ^ (J + 1 - sh) := by
      have h1 : 2 ^ J = 2 * 2 ^ (J - 1) := by rw [← pow_succ']; congr 1; omega
      have h2 : 2 ^ (J - 1) ≤ 2 ^ (J + 1 - sh) := Nat.pow_le_pow_right (by norm_num) (by omega)
      omega
    have h1 : 3 * 2 ^ (J - 1) * 2 ^ (T.W - 1) ≤ (2 ^ J + 2 ^ (J + 1 - sh)) * c.f :=
      Nat.mul_le_mul hn hc1
    have h2 : 3 * 2 ^ (J - 1) * 2 ^ (T.W - 1) = 3 * 2 ^ (J - 2) * 2 ^ T.W := by
      rw [hW1, show J - 1 = (J - 2) + 1 by omega, pow_succ]; ring
    rw [h2] at h1
    exact Nat.lt_of_mul_lt_mul_right (lt_of_le_of_lt h1 hgap)
  have hMp : (pl.mul T.W c).dec T.W = ⟨P - 1, -(s : Int)⟩ := by
    unfold DiyFp.dec
    have : 1 < P := by
      have : 2 ^ 1 ≤ 2 ^ (T.W - 2) := Nat.pow_le_pow_right (by norm_num)
        (by cases T <;> simp [FloatType.W])
      omega
    rw [if_pos this]; simp only [hep, hs, hP]
  have hMm : (mi.mul T.W c).inc T.W = ⟨Q + 1, -(s : Int)⟩ := by
    unfold DiyFp.inc
    rw [if_pos (by omega), Nat.mod_eq_of_lt (by omega)]; simp only [hem, hs, hQ]
  have hJ96 : 96 ≤ 3 * 2 ^ (J - 2) := by
    have : 2 ^ 5 ≤ 2 ^ (J - 2) := Nat.pow_le_pow_right (by norm_num) (by omega)
    omega
  -- number of integral digits
  have h2s : 0 < 2 ^ s := by positivity
  have hPs : 2 ^ s ≤ P - 1 := by
    have h1 : 2 ^ s + 1 ≤ 2 ^ (T.W - 2) := by
      have : 2 ^ s ≤ 2 ^ (T.W / 2 + 3) := Nat.pow_le_pow_right (by norm_num) hsr.2
      have : 2 ^ (T.W / 2 + 3) + 1 ≤ 2 ^ (T.W - 2) := by cases T <;> simp [FloatType.W]
      omega
    omega
  set κ := Nat.log 10 ((P - 1) / 2 ^ s) with hκ
  have hp1ne : (P - 1) / 2 ^ s ≠ 0 := by
    have : 1 ≤ (P - 1) / 2 ^ s := by rw [Nat.le_div_iff_mul_le h2s, one_mul]; exact hPs
    omega
  have hκ1 : 10 ^ κ * 2 ^ s ≤ P - 1 := by
    have := Nat.pow_log_le_self 10 hp1ne
    rwa [Nat.le_div_iff_mul_le h2s] at this
  have hκ2 : P - 1 < 10 ^ (κ + 1) * 2 ^ s := by
    have := Nat.lt_pow_succ_log_self (by norm_num : 1 < 10) ((P - 1) / 2 ^ s)
    rwa [Nat.div_lt_iff_lt_mul h2s] at this
  have hκb : κ < 10 ∧ (T = .float → κ ≤ 4) := by
    have h1 : 10 ^ κ * 2 ^ s < 2 ^ T.W := by omega
    have h2 : 10 ^ κ * 2 ^ (T.W / 2) < 2 ^ T.W :=
      lt_of_le_of_lt (Nat.mul_le_mul_left _ (Nat.pow_le_pow_right (by norm_num) hsr.1)) h1
    clear * - h2
    cases T
    · have hk : κ ≤ 4 := by
        by_contra hne
        have : 10 ^ 5 ≤ 10 ^ κ := Nat.pow_le_pow_right (by norm_num) (by omega)
        simp only [FloatType.W] at h2; norm_num at h2 this; omega
      exact ⟨by omega, fun _ => hk⟩
    · refine ⟨?_, by simp⟩
      by_contra hne
      have : 10 ^ 10 ≤ 10 ^ κ := Nat.pow_le_pow_right (by norm_num) (by omega)
      simp only [FloatType.W] at h2; norm_num at h2 this; omega
  have hpl' : (pl.f : ℚ) * 2 ^ E = (2 * f + 1) * 2 ^ st / 2 * 2 ^ emin T := by
    have : (pl.f : ℚ) = (2 * f + 1) * 2 ^ J := by rw [hpl]; push_cast; ring
    rw [this, hEdef, zpow_sub₀ (by norm_num), zpow_sub₀ (by norm_num), zpow_add₀ (by norm_num),
      zpow_natCast, zpow_natCast, zpow_one]
    have : (2 : ℚ) ^ J ≠ 0 := by positivity
    field_simp
  have hmi' : (mi.f : ℚ) * 2 ^ E = (f * 2 ^ sh - 1) * (2 ^ st * 2 / 2 ^ sh) / 2 * 2 ^ emin T := by
    have h1 : (mi.f : ℚ) = (f * 2 ^ sh - 1) * (2 ^ J * 2 / 2 ^ sh) := by
      rw [hmi]; push_cast [Nat.cast_sub (show 1 ≤ f * 2 ^ sh by omega)]
      rw [eq_comm]
      congr 1
      rw [div_eq_iff (by positivity), ← pow_add, show J + 1 - sh + sh = J + 1 by omega]; ring
    rw [h1, hEdef, zpow_sub₀ (by norm_num), zpow_sub₀ (by norm_num), zpow_add₀ (by norm_num),
      zpow_natCast, zpow_natCast, zpow_one]
    have : (2 : ℚ) ^ J ≠ 0 := by positivity
    field_simp
  have hw : 2 ^ J + 2 ^ (J + 1 - sh) ≤ 2 ^ (J + 1) := by
    have : 2 ^ (J + 1 - sh) ≤ 2 ^ J := Nat.pow_le_pow_right (by norm_num) (by omega)
    rw [pow_succ]; omega
  have hw3 : 3 * 2 ^ (J - 1) ≤ 2 ^ J + 2 ^ (J + 1 - sh) := by
    have h1 : 2 ^ J = 2 * 2 ^ (J - 1) := by rw [← pow_succ']; congr 1; omega
    have h2 : 2 ^ (J - 1) ≤ 2 ^ (J + 1 - sh) := Nat.pow_le_pow_right (by norm_num) (by omega)
    omega
  have hPQ : P - Q ≤ 2 ^ (J + 1) := by
    have h1 : (P - Q) * 2 ^ T.W < (2 ^ (J + 1) + 1) * 2 ^ T.W := by
      rw [Nat.sub_mul, Nat.add_mul, one_mul]
      have h2 : (2 ^ J + 2 ^ (J + 1 - sh)) * c.f ≤ 2 ^ (J + 1) * 2 ^ T.W :=
        Nat.mul_le_mul hw hc2.le
      rw [mul_comm] at hdmp hdmm
      omega
    exact Nat.le_of_lt_succ (Nat.lt_of_mul_lt_mul_right h1)
  have hds : 2 ^ (T.W / 2) ≤ a → 2 ^ (J + 1) < 2 ^ s := by
    intro h
    have h1 := hbig h
    have h2 : 2 ^ (T.W / 2 + (J + 1)) ≤ (2 * f + 1) * 2 ^ J := by
      rw [pow_add, pow_succ, mul_comm (2 ^ J) 2, ← mul_assoc]
      exact Nat.mul_le_mul_right _ (by omega)
    have h3 : T.W / 2 + (J + 1) < T.W :=
      (Nat.pow_lt_pow_iff_right (by norm_num : 1 < 2)).mp (lt_of_le_of_lt h2 hpl2)
    have h4 : T.W = 2 * (T.W / 2) := by clear * -; cases T <;> rfl
    exact Nat.pow_lt_pow_right (by norm_num) (by clear * - h3 h4 hsr; omega)
  have h10W : 2 ^ s ≤ (P - 1 - (Q + 1)) * 10 ^ T.W := by
    calc 2 ^ s ≤ 2 ^ T.W := Nat.pow_le_pow_right (by norm_num)
          (by clear * - hsr; cases T <;> simp only [FloatType.W] at * <;> omega)
      _ ≤ 10 ^ T.W := Nat.pow_le_pow_left (by norm_num) _
      _ ≤ _ := Nat.le_mul_of_pos_left _ (by omega)
  obtain ⟨m, hm1', hm2', hm3'⟩ : ∃ m : Nat, m ≤ T.W ∧ 2 ^ s ≤ (P - 1 - (Q + 1)) * 10 ^ m ∧
      (¬ P - 1 - (Q + 1) < 2 ^ s → m = 0) := by
    by_cases hd : P - 1 - (Q + 1) < 2 ^ s
    · exact ⟨T.W, le_rfl, h10W, fun h => absurd hd h⟩
    · exact ⟨0, Nat.zero_le _, by simpa using hd, fun _ => rfl⟩
  obtain ⟨ds, k2, d1, d2, d3, d4, -, -, d8, d7⟩ := digitGen_ok T ⟨P - 1, -(s : Int)⟩ ⟨Q + 1, -(s : Int)⟩
    s κ m rfl rfl (by cases T <;> simp only [FloatType.W] at * <;> omega)
    (by cases T <;> simp only [FloatType.W] at * <;> omega) (by simp only; omega) (by simp only; omega)
    hκ1 hκ2 hκb.1 hm2' hm1' (by cases T <;> simp [FloatType.W])
  have m2 : 2 ^ (T.W / 2) ≤ a ∨ fewDigits T < ds.length →
      ∀ (n : Nat) (k' : Int), k2 < k' → ¬ (((Q + 1 : Nat) : ℚ) ≤ n * 10 ^ k' * 2 ^ s ∧
        (n * 10 ^ k' * 2 ^ s : ℚ) ≤ ((P - 1 : Nat) : ℚ)) := by
    intro hor
    have hd : P - 1 - (Q + 1) < 2 ^ s := by
      rcases hor with h | h
      · have := hds h; omega
      · by_contra hc
        have hm0 := hm3' hc
        rw [hm0] at d1
        have hκT : κ + 1 ≤ fewDigits T := by
          cases T
          · exact Nat.succ_le_succ (hκb.2 rfl)
          · exact hκb.1
        omega
    obtain ⟨dl, dg, k3, m1, m2, m3⟩ := digitGen_max T ⟨P - 1, -(s : Int)⟩ ⟨Q + 1, -(s : Int)⟩
      s κ T.W rfl rfl (by cases T <;> simp only [FloatType.W] at * <;> omega)
      (by cases T <;> simp only [FloatType.W] at * <;> omega) (by simp only; omega) (by simp only; omega)
      hd hκ1 hκ2 hκb.1 h10W le_rfl (by cases T <;> simp [FloatType.W])
    have hkk : k3 = k2 := by
      have e1 := d7 0 0 [] (List.replicate (dl + ds.length) 0) rfl (by simp)
      have e2 := m3 0 (List.replicate (dl + ds.length) 0) (by simp)
      rw [List.nil_append, e2, Except.ok.injEq, Prod.mk.injEq, Prod.mk.injEq] at e1
      have := e1.2.2
      omega
    subst hkk
    exact m2
  simp only at d3 d4 d8
  have hP1 : ((P - 1 : Nat) : ℚ) = P - 1 := by
    push_cast [Nat.cast_sub (show 1 ≤ P by omega)]; ring
  have hQ1 : ((Q + 1 : Nat) : ℚ) = Q + 1 := by push_cast; ring
  rw [hP1] at d4 d8 m2
  rw [hQ1] at d3 m2
  have hus : (0 : ℚ) < 2 ^ (-(s : Int)) := by positivity
  have hss : (2 : ℚ) ^ s * 2 ^ (-(s : Int)) = 1 := by
    rw [zpow_neg, zpow_natCast]; exact mul_inv_cancel₀ (by positivity)
  have h10 : (0 : ℚ) < 10 ^ mk := by positivity
  have hscale : ∀ (n : Nat) (k' : Int), (n : ℚ) * 10 ^ (-mk + k') * 10 ^ mk * 2 ^ s =
      n * 10 ^ k' * 2 ^ s := by
    intro n k'
    have : (n : ℚ) * 10 ^ (-mk + k') * 10 ^ mk = n * 10 ^ k' := by
      rw [mul_assoc, ← zpow_add₀ (by norm_num)]; congr 2; ring
    rw [this]
  have hA : ∀ z : ℚ, ((Q : ℚ) + 1) * 2 ^ (-(s : Int)) / 10 ^ mk ≤ z ↔ (Q : ℚ) + 1 ≤ z * 10 ^ mk * 2 ^ s := by
    intro z
    rw [div_le_iff₀ h10, zpow_neg, zpow_natCast, ← div_eq_mul_inv, div_le_iff₀ (by positivity)]
  have hB : ∀ z : ℚ, z ≤ ((P : ℚ) - 1) * 2 ^ (-(s : Int)) / 10 ^ mk ↔ z * 10 ^ mk * 2 ^ s ≤ (P : ℚ) - 1 := by
    intro z
    rw [le_div_iff₀ h10, zpow_neg, zpow_natCast, ← div_eq_mul_inv, le_div_iff₀ (by positivity)]
  refine ⟨((Q : ℚ) + 1) * 2 ^ (-(s : Int)) / 10 ^ mk, ((P : ℚ) - 1) * 2 ^ (-(s : Int)) / 10 ^ mk,
    ds, -mk + k2, by positivity, ?_, ?_, ?_, ?_, ?_, ?_, ?_⟩
  · rw [hA, hscale]; exact d3
  · rw [hB, hscale]; exact d4
  · -- the safe interval
    intro y hy1 hy2
    have hlo : (N T (a - 1) + N T a : ℚ) / 2 * 2 ^ emin T = mi.f * 2 ^ E := by rw [hlow, hmi']
    have hhi : (N T a + N T (a + 1) : ℚ) / 2 * 2 ^ emin T = pl.f * 2 ^ E := by
      rw [hpl', hNs, hNa, hulp]; push_cast; ring
    have hwid : ((N T (a + 1) - N T a : ℚ) * 2 ^ emin T) = (2 ^ (J + 1) : Nat) * 2 ^ E := by
      have hu : (2 : ℚ) ^ (J + 1) * 2 ^ E = 2 ^ st * 2 ^ emin T := by
        rw [hEdef, ← zpow_natCast (2 : ℚ) (J + 1), ← zpow_natCast (2 : ℚ) st, ← zpow_add₀ (by norm_num),
          ← zpow_add₀ (by norm_num)]
        congr 1
        push_cast
        ring
      rw [hNs, hulp]
      push_cast
      rw [hu]
      ring
    rw [hlo, hwid] at hy1
    rw [hhi, hwid] at hy2
    rw [hA, hB]
    have hE10 : (1 / 2 - 1 / 2 ^ (T.W + 1) : ℚ) ≤ 2 ^ E * 10 ^ mk * 2 ^ s := by
      have hu : (2 : ℚ) ^ E * 2 ^ c.e * 2 ^ T.W * 2 ^ s = 1 := by
        rw [← zpow_natCast, ← zpow_natCast, ← zpow_add₀ (by norm_num), ← zpow_add₀ (by norm_num),
          ← zpow_add₀ (by norm_num), hs]; simp
      rw [abs_le] at hc3
      have h1 : ((c.f : ℚ) - 1 / 2) * 2 ^ c.e ≤ 10 ^ mk := by linarith [hc3.2]
      have h2 : (2 : ℚ) ^ (T.W - 1) ≤ c.f := by exact_mod_cast hc1
      have hWq : (2 : ℚ) ^ T.W = 2 * 2 ^ (T.W - 1) := by exact_mod_cast hW1
      have hp0 : (0 : ℚ) < 2 ^ (T.W - 1) := by positivity
      have h3 : (2 ^ (T.W - 1) - 1 / 2 : ℚ) * 2 ^ c.e ≤ 10 ^ mk :=
        le_trans (mul_le_mul_of_nonneg_right (by linarith) (by positivity)) h1
      calc (1 / 2 - 1 / 2 ^ (T.W + 1) : ℚ)
          = (1 / 2 - 1 / 2 ^ (T.W + 1)) * (2 ^ E * 2 ^ c.e * 2 ^ T.W * 2 ^ s) := by rw [hu, mul_one]
        _ = 2 ^ E * ((2 ^ (T.W - 1) - 1 / 2) * 2 ^ c.e) * 2 ^ s := by
            rw [pow_succ, hWq]; field_simp
        _ ≤ 2 ^ E * 10 ^ mk * 2 ^ s := by
            apply mul_le_mul_of_nonneg_right _ (by positivity)
            exact mul_le_mul_of_nonneg_left h3 (by positivity)
    have hcut : (2 : ℚ) ≤ ((2 ^ (J + 1) : Nat) : ℚ) * 2 ^ E / margin T * 10 ^ mk * 2 ^ s := by
      have h2 : (2 : ℚ) ≤ ((2 ^ (J + 1) : Nat) : ℚ) / margin T * (1 / 2 - 1 / 2 ^ (T.W + 1)) := by
        have hJm : ((2 ^ (T.W - T.p - 1 + 1) : Nat) : ℚ) ≤ ((2 ^ (J + 1) : Nat) : ℚ) := by
          exact_mod_cast Nat.pow_le_pow_right (by norm_num) (by omega)
        have hc0 : (0 : ℚ) < margin T := by cases T <;> norm_num [margin]
        have hh0 : (0 : ℚ) ≤ 1 / 2 - 1 / 2 ^ (T.W + 1) := by cases T <;> norm_num [FloatType.W]
        refine le_trans ?_ (mul_le_mul_of_nonneg_right (div_le_div_of_nonneg_right hJm hc0.le) hh0)
        clear * -
        cases T
        · norm_num [FloatType.W, FloatType.p, margin]
        · norm_num [FloatType.W, FloatType.p, margin]
      have hc0 : (0 : ℚ) < margin T := by cases T <;> norm_num [margin]
      calc (2 : ℚ) ≤ _ := h2
        _ ≤ ((2 ^ (J + 1) : Nat) : ℚ) / margin T * (2 ^ E * 10 ^ mk * 2 ^ s) :=
            mul_le_mul_of_nonneg_left hE10 (by positivity)
        _ = _ := by ring
    rw [abs_lt] at herrp herrm
    have hep' : (P : ℚ) - 1 < pl.f * 2 ^ E * 10 ^ mk * 2 ^ s ∧ pl.f * 2 ^ E * 10 ^ mk * 2 ^ s < (P : ℚ) + 1 := by
      have h2s' : (0 : ℚ) < 2 ^ s := by positivity
      constructor
      · have := mul_lt_mul_of_pos_right herrp.2 h2s'
        rw [mul_comm (2 ^ (-(s : Int)) : ℚ) (2 ^ s), hss, sub_mul, mul_assoc, mul_comm (2 ^ (-(s : Int)) : ℚ) (2 ^ s), hss] at this
        have e : (pl.e : Int) = E := rfl
        rw [e] at this
        linarith
      · have := mul_lt_mul_of_pos_right herrp.1 h2s'
        rw [neg_mul, mul_comm (2 ^ (-(s : Int)) : ℚ) (2 ^ s), hss, sub_mul, mul_assoc, mul_comm (2 ^ (-(s : Int)) : ℚ) (2 ^ s), hss] at this
        have e : (pl.e : Int) = E := rfl
        rw [e] at this
        linarith
    have hem' : (Q : ℚ) - 1 < mi.f * 2 ^ E * 10 ^ mk * 2 ^ s ∧ mi.f * 2 ^ E * 10 ^ mk * 2 ^ s < (Q : ℚ) + 1 := by
      have h2s' : (0 : ℚ) < 2 ^ s := by positivity
      constructor
      · have := mul_lt_mul_of_pos_right herrm.2 h2s'
        rw [mul_comm (2 ^ (-(s : Int)) : ℚ) (2 ^ s), hss, sub_mul, mul_assoc, mul_comm (2 ^ (-(s : Int)) : ℚ) (2 ^ s), hss] at this
        have e : (mi.e : Int) = E := rfl
        rw [e] at this
        linarith
      · have := mul_lt_mul_of_pos_right herrm.1 h2s'
        rw [neg_mul, mul_comm (2 ^ (-(s : Int)) : ℚ) (2 ^ s), hss, sub_mul, mul_assoc, mul_comm (2 ^ (-(s : Int)) : ℚ) (2 ^ s), hss] at this
        have e : (mi.e : Int) = E := rfl
        rw [e] at this
        linarith
    have hpos : (0 : ℚ) ≤ 10 ^ mk * 2 ^ s := by positivity
    have g1 := mul_le_mul_of_nonneg_right hy1 hpos
    have g2 := mul_le_mul_of_nonneg_right hy2 hpos
    rw [← mul_assoc, ← mul_assoc, add_mul, add_mul] at g1
    rw [← mul_assoc, ← mul_assoc, sub_mul, sub_mul] at g2
    constructor
    · linarith [hem'.1]
    · linarith [hep'.2]
  · rintro hor n k' hk ⟨h1, h2⟩
    rw [hA] at h1
    rw [hB] at h2
    refine m2 hor n (k' + mk) (by omega) ⟨?_, ?_⟩
    · rw [← hscale, show -mk + (k' + mk) = k' by ring]; exact h1
    · rw [← hscale, show -mk + (k' + mk) = k' by ring]; exact h2
  · rw [← not_le, hB, hscale]
    push_cast
    exact not_le.mpr d8
  · refine ⟨ds.length, ?_⟩
    intro rest hrest
    unfold grisu2 grisu2At
    rw [hbd, ok_bind]
    have hple : pl.e = E := rfl
    simp only [hple, kComp_double, hmk]
    rw [hc0, ok_bind]
    have := d7 (-mk) 0 [] rest rfl hrest
    rw [List.nil_append, List.nil_append] at this
    rw [hMp, hMm, this]
  · -- the ends of the interval that is searched
    have hu : (2 : ℚ) ^ E * 2 ^ c.e * 2 ^ T.W = 2 ^ (-(s : Int)) := by
      rw [← zpow_natCast, ← zpow_add₀ (by norm_num), ← zpow_add₀ (by norm_num), hs]
    have hWq : (2 : ℚ) ^ T.W = 2 * 2 ^ (T.W - 1) := by exact_mod_cast hW1
    have hk0 : (0 : ℚ) ≤ 2 ^ E * 2 ^ c.e := by positivity
    refine ⟨J, E, c, hEdef, hpl1, hpl2, by rw [hmk]; exact hc0, ?_, ?_⟩
    · rw [hmk, div_mul_cancel₀ _ h10.ne', ← hu]
      have h1 : ((Q * 2 ^ T.W : Nat) : ℚ) ≤ ((mi.f * c.f + 2 ^ (T.W - 1) : Nat) : ℚ) := by
        exact_mod_cast (by rw [mul_comm] at hdmm; omega)
      push_cast at h1
      calc ((Q : ℚ) + 1) * (2 ^ E * 2 ^ c.e * 2 ^ T.W) = (Q * 2 ^ T.W + 2 ^ T.W) * (2 ^ E * 2 ^ c.e) := by ring
        _ ≤ (mi.f * c.f + 3 * 2 ^ (T.W - 1)) * (2 ^ E * 2 ^ c.e) :=
            mul_le_mul_of_nonneg_right (by linarith) hk0
    · rw [hmk, div_mul_cancel₀ _ h10.ne', ← hu]
      have h1 : ((pl.f * c.f + 2 ^ (T.W - 1) : Nat) : ℚ) ≤ ((P * 2 ^ T.W + 2 ^ T.W : Nat) : ℚ) := by
        exact_mod_cast (by rw [mul_comm] at hdmp; omega)
      push_cast at h1
      calc (pl.f * c.f - 3 * 2 ^ (T.W - 1) : ℚ) * (2 ^ E * 2 ^ c.e)
          ≤ (P * 2 ^ T.W - 2 ^ T.W) * (2 ^ E * 2 ^ c.e) :=
            mul_le_mul_of_nonneg_right (by linarith) hk0
        _ = ((P : ℚ) - 1) * (2 ^ E * 2 ^ c.e * 2 ^ T.W) := by ring

/-- The same without the ends of the interval that is searched. -/
theorem grisu2_brief (T : FloatType) (bits : Nat) (hb : bits < 2 ^ T.W)
    (hfin : absPat T bits < posInf T) (h0 : absPat T bits ≠ 0) (hnor : absPat T bits ≠ 2 ^ (T.p - 1)) :
    ∃ (A B : ℚ) (ds : List (Fin 10)) (k : Int), 0 < A ∧
      A ≤ digitsVal ds * 10 ^ k ∧ (digitsVal ds * 10 ^ k : ℚ) ≤ B ∧
      (∀ y : ℚ, (N T (absPat T bits - 1) + N T (absPat T bits) : ℚ) / 2 * 2 ^ emin T +
          ((N T (absPat T bits + 1) - N T (absPat T bits) : ℚ) * 2 ^ emin T) / margin T ≤ y →
        y ≤ (N T (absPat T bits) + N T (absPat T bits + 1) : ℚ) / 2 * 2 ^ emin T -
          ((N T (absPat T bits + 1) - N T (absPat T bits) : ℚ) * 2 ^ emin T) / margin T →
        A ≤ y ∧ y ≤ B) ∧
      (2 ^ (T.W / 2) ≤ absPat T bits ∨ fewDigits T < ds.length →
        ∀ (n : Nat) (k' : Int), k < k' → ¬ (A ≤ n * 10 ^ k' ∧ (n * 10 ^ k' : ℚ) ≤ B)) ∧
      B < (digitsVal ds + 1 : ℕ) * 10 ^ k ∧
      ∃ L, ∀ (rest : List Nat), L ≤ rest.length →
        grisu2 T bits rest 0 =
          .ok (ds.map digitChar ++ rest.drop ds.length, ds.length, k) := by
  obtain ⟨A, B, ds, k, a1, a2, a3, a4, a5, a6, a7, -⟩ := grisu2_brief' T bits hb hfin h0 hnor
  exact ⟨A, B, ds, k, a1, a2, a3, a4, a5, a6, a7⟩

/-- Grisu2 on a normal value: no multiple of a larger power of ten well inside
the rounding interval. -/
theorem grisu2_short (T : FloatType) (bits : Nat) (hb : bits < 2 ^ T.W)
    (hfin : absPat T bits < posInf T) (hnor : 2 ^ (T.p - 1) < absPat T bits) :
    ∃ (A B : ℚ) (ds : List (Fin 10)) (k : Int), 0 < A ∧
      A ≤ digitsVal ds * 10 ^ k ∧ (digitsVal ds * 10 ^ k : ℚ) ≤ B ∧
      (∀ y : ℚ, (N T (absPat T bits - 1) + N T (absPat T bits) : ℚ) / 2 * 2 ^ emin T +
          ((N T (absPat T bits + 1) - N T (absPat T bits) : ℚ) * 2 ^ emin T) / margin T ≤ y →
        y ≤ (N T (absPat T bits) + N T (absPat T bits + 1) : ℚ) / 2 * 2 ^ emin T -
          ((N T (absPat T bits + 1) - N T (absPat T bits) : ℚ) * 2 ^ emin T) / margin T →
        A ≤ y ∧ y ≤ B) ∧
      (∀ (n : Nat) (k' : Int), k < k' → ¬ (A ≤ n * 10 ^ k' ∧ (n * 10 ^ k' : ℚ) ≤ B)) ∧
      B < (digitsVal ds + 1 : ℕ) * 10 ^ k ∧
      ∃ L, ∀ (rest : List Nat), L ≤ rest.length →
        grisu2 T bits rest 0 =
          .ok (ds.map digitChar ++ rest.drop ds.length, ds.length, k) := by
  have hWp : 2 ^ (T.W / 2) ≤ 2 ^ (T.p - 1) := by cases T <;> decide
  obtain ⟨A, B, ds, k, a1, a2, a3, a4, a5, a6, a7⟩ :=
    grisu2_brief T bits hb hfin (by have := Nat.two_pow_pos (T.p - 1); omega) (by omega)
  exact ⟨A, B, ds, k, a1, a2, a3, a4, a5 (Or.inl (by omega)), a6, a7⟩

end Floaxie
