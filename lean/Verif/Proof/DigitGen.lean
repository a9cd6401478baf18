import Mathlib.Algebra.Order.Field.Power
import Mathlib.Data.Rat.Cast.Order
import Verif.Proof.Digits
import Verif.Proof.Word
import Verif.Model.Grisu

/-! # Digit generation -/

namespace Floaxie

open FloatType Spec

theorem kappaDiv_ok (n : Nat) (h0 : n ≠ 0) (h : n < 10 ^ 10) :
    ∃ κ, calculateKappaDiv n = (κ + 1, 10 ^ κ) ∧ 10 ^ κ ≤ n ∧ n < 10 ^ (κ + 1) := by
  unfold calculateKappaDiv
  split_ifs
  · exact ⟨0, by simp, by omega, by omega⟩
  · exact ⟨1, by simp, by omega, by omega⟩
  · exact ⟨2, by simp, by omega, by omega⟩
  · exact ⟨3, by simp, by omega, by omega⟩
  · exact ⟨4, by simp, by omega, by omega⟩
  · exact ⟨5, by simp, by omega, by omega⟩
  · exact ⟨6, by simp, by omega, by omega⟩
  · exact ⟨7, by simp, by omega, by omega⟩
  · exact ⟨8, by simp, by omega, by omega⟩
  · exact ⟨9, by simp, by omega, by omega⟩

/-- Integral digits. -/
theorem genInt_ok : ∀ (κ p1 div : Nat), p1 < 10 ^ κ → (0 < κ → div = 10 ^ (κ - 1)) →
    ∃ (ds : List (Fin 10)) (k' : Nat), ds.length + k' = κ ∧ digitsVal ds * 10 ^ k' = p1 ∧
      (∀ h : ds ≠ [], ds.getLast h ≠ 0) ∧
      (0 < κ → 10 ^ (κ - 1) ≤ p1 → ∃ h : ds ≠ [], ds.head h ≠ 0) ∧
      ∀ (o : Nat) (pre rest : List Nat) (len : Nat), pre.length = o + len →
        ds.length ≤ rest.length → genIntLoop o κ div p1 (pre ++ rest) len =
          .ok (pre ++ ds.map digitChar ++ rest.drop ds.length, len + ds.length, k') := by
  intro κ
  induction κ with
  | zero =>
    intro p1 div h _
    simp at h
    subst h
    exact ⟨[], 0, rfl, rfl, by simp, by simp, by intros; simp [genIntLoop]⟩
  | succ κ ih =>
    intro p1 div h hdiv
    have hdiv := hdiv (by omega)
    simp only [Nat.add_sub_cancel] at hdiv
    subst hdiv
    by_cases hp : p1 = 0
    · subst hp
      refine ⟨[], κ + 1, by simp, by simp, by simp, ?_, ?_⟩
      · intro _ hle
        have : 0 < 10 ^ κ := by positivity
        simp at hle
      · intros; simp [genIntLoop]
    · have hpos : 0 < 10 ^ κ := by positivity
      have hd : p1 / 10 ^ κ < 10 := by
        rw [Nat.div_lt_iff_lt_mul hpos, ← pow_succ']; exact h
      obtain ⟨ds, k', h1, h2, h3, _, h5⟩ := ih (p1 % 10 ^ κ) (10 ^ κ / 10) (Nat.mod_lt _ hpos)
        (by
          intro hk
          obtain ⟨m, rfl⟩ : ∃ m, κ = m + 1 := ⟨κ - 1, by omega⟩
          rw [pow_succ, Nat.mul_div_cancel _ (by norm_num)]; rfl)
      refine ⟨⟨p1 / 10 ^ κ, hd⟩ :: ds, k', by simp; omega, ?_, ?_, ?_, ?_⟩
      · rw [digitsVal_cons, add_mul, h2, mul_assoc, ← pow_add, h1]
        simp only
        exact Nat.div_add_mod' p1 (10 ^ κ)
      · intro hne
        by_cases hds : ds = []
        · subst hds
          simp only [List.getLast_singleton]
          simp at h2
          intro h0
          have h0 : p1 / 10 ^ κ = 0 := by simpa using congrArg Fin.val h0
          have := Nat.div_add_mod p1 (10 ^ κ)
          rw [h0] at this
          omega
        · rw [List.getLast_cons hds]; exact h3 hds
      · intro _ hle
        simp only [Nat.add_sub_cancel] at hle
        refine ⟨by simp, ?_⟩
        simp only [List.head_cons]
        intro h0
        have h0 : p1 / 10 ^ κ = 0 := by simpa using congrArg Fin.val h0
        have : 1 ≤ p1 / 10 ^ κ := by rw [Nat.le_div_iff_mul_le hpos]; omega
        omega
      · intro o pre rest len hpre hrest
        simp only [List.length_cons] at hrest
        have hr : rest ≠ [] := by intro h; subst h; simp at hrest
        unfold genIntLoop
        rw [if_pos hp, if_neg (by omega), wr_append hpre hr, ok_bind]
        have e : pre ++ ('0'.toNat + p1 / 10 ^ κ) :: rest.drop 1 =
          (pre ++ [digitChar ⟨p1 / 10 ^ κ, hd⟩]) ++ rest.drop 1 := by simp [digitChar]
        rw [e, h5 _ _ _ _ (by simp; omega) (by simp; omega)]
        simp only [List.map_cons, List.length_cons, List.drop_drop, List.append_assoc,
          List.cons_append, List.nil_append]
        rw [show len + 1 + ds.length = len + (ds.length + 1) by ring,
          show 1 + ds.length = ds.length + 1 by ring]

/-- Fractional digits. -/
theorem genFrac_ok (T : FloatType) (s : Nat) (hs : s + 4 ≤ T.W) :
    ∀ (m fuel p2 delta kappa : Nat), m < fuel → p2 < 2 ^ s → 2 ^ s ≤ delta * 10 ^ m →
      kappa + m < 256 →
      ∃ (ds : List (Fin 10)) (p2' : Nat), ds.length ≤ m ∧ p2' ≤ delta * 10 ^ ds.length ∧
        p2 * 10 ^ ds.length = digitsVal ds * 2 ^ s + p2' ∧
        (delta < p2 → ds ≠ []) ∧
        (∀ h : ds ≠ [], ds.getLast h ≠ 0) ∧ p2' < 2 ^ s ∧
        ∀ (o : Nat) (pre rest : List Nat) (len : Nat), pre.length = o + len →
          ds.length ≤ rest.length → genFracLoop T o s (2 ^ s) true fuel p2 delta (pre ++ rest) len kappa =
            .ok (pre ++ ds.map digitChar ++ rest.drop ds.length, len + ds.length,
              kappa + ds.length) := by
  intro m
  induction m with
  | zero =>
    intro fuel p2 delta kappa hf hp hd hk
    obtain ⟨fuel, rfl⟩ : ∃ m, fuel = m + 1 := ⟨fuel - 1, by omega⟩
    simp at hd
    refine ⟨[], p2, by simp, by simp; omega, by simp, by omega, by simp, hp, ?_⟩
    intro o pre rest len _ _
    unfold genFracLoop
    rw [if_neg (by omega)]; simp
  | succ m ih =>
    intro fuel p2 delta kappa hf hp hd hk
    obtain ⟨fuel, rfl⟩ : ∃ m, fuel = m + 1 := ⟨fuel - 1, by omega⟩
    by_cases hle : p2 ≤ delta
    · refine ⟨[], p2, by simp, by simpa using hle, by simp, by omega, by simp, hp, ?_⟩
      intro o pre rest len _ _
      unfold genFracLoop
      rw [if_neg (by omega)]; simp
    · have hW : 2 ^ s * 16 ≤ 2 ^ T.W := by
        calc 2 ^ s * 16 = 2 ^ (s + 4) := by rw [pow_add]; norm_num
          _ ≤ _ := Nat.pow_le_pow_right (by norm_num) hs
      have hpos : 0 < 2 ^ s := by positivity
      have e1 : p2 * 10 % 2 ^ T.W = p2 * 10 := Nat.mod_eq_of_lt (by omega)
      have e2 : delta * 10 % 2 ^ T.W = delta * 10 := Nat.mod_eq_of_lt (by omega)
      have hdig : p2 * 10 / 2 ^ s < 10 := by rw [Nat.div_lt_iff_lt_mul hpos]; omega
      obtain ⟨ds, p2', g1, g2, g3, g4, g5, gB, g6⟩ := ih fuel (p2 * 10 % 2 ^ s) (delta * 10) (kappa + 1)
        (by omega) (Nat.mod_lt _ hpos) (by rw [pow_succ'] at hd; rw [mul_assoc]; exact hd) (by omega)
      refine ⟨⟨p2 * 10 / 2 ^ s, hdig⟩ :: ds, p2', by simp; omega, ?_, ?_, by simp, ?_, gB, ?_⟩
      · rw [List.length_cons, pow_succ', ← mul_assoc]; exact g2
      · rw [List.length_cons, pow_succ', ← mul_assoc, digitsVal_cons]
        simp only
        have := Nat.div_add_mod' (p2 * 10) (2 ^ s)
        calc p2 * 10 * 10 ^ ds.length
            = (p2 * 10 / 2 ^ s * 2 ^ s + p2 * 10 % 2 ^ s) * 10 ^ ds.length := by rw [this]
          _ = _ := by rw [add_mul, g3]; ring
      · intro hne
        by_cases hds : ds = []
        · subst hds
          simp only [List.getLast_singleton]
          simp at g3 g2
          intro h0
          have h0 : p2 * 10 / 2 ^ s = 0 := by simpa using congrArg Fin.val h0
          have := Nat.div_add_mod (p2 * 10) (2 ^ s)
          rw [h0] at this
          omega
        · rw [List.getLast_cons hds]; exact g5 hds
      · intro o pre rest len hpre hrest
        simp only [List.length_cons] at hrest
        have hr : rest ≠ [] := by intro h; subst h; simp at hrest
        unfold genFracLoop
        rw [if_pos (by omega)]
        simp only [e1, e2, Bool.true_or, if_true]
        rw [Nat.shiftRight_eq_div_pow, Nat.mod_eq_of_lt (show p2 * 10 / 2 ^ s < 256 by omega),
          wr_append hpre hr, ok_bind, pure_bind']
        have e : pre ++ ('0'.toNat + p2 * 10 / 2 ^ s) :: rest.drop 1 =
          (pre ++ [digitChar ⟨p2 * 10 / 2 ^ s, hdig⟩]) ++ rest.drop 1 := by simp [digitChar]
        simp only
        rw [e, Nat.and_two_pow_sub_one_eq_mod, Nat.mod_eq_of_lt (show kappa + 1 < 256 by omega),
          g6 _ _ _ _ (by simp; omega) (by simp; omega)]
        simp only [List.map_cons, List.length_cons, List.drop_drop, List.append_assoc,
          List.cons_append, List.nil_append]
        rw [show len + 1 + ds.length = len + (ds.length + 1) by ring,
          show kappa + 1 + ds.length = kappa + (ds.length + 1) by ring,
          show 1 + ds.length = ds.length + 1 by ring]

/-- `digit_gen`: the number written lies in `[M-, M+]`, and the next larger one with
as many digits does not. -/
theorem digitGen_ok (T : FloatType) (Mp Mm : DiyFp) (s κ m : Nat)
    (hs1 : Mp.e = -(s : Int)) (hs2 : Mm.e = -(s : Int)) (hsW : s + 4 ≤ T.W) (hsW2 : T.W ≤ s + 32)
    (hMp : Mp.f < 2 ^ T.W) (hlt : Mm.f ≤ Mp.f)
    (hκ1 : 10 ^ κ * 2 ^ s ≤ Mp.f) (hκ2 : Mp.f < 10 ^ (κ + 1) * 2 ^ s)
    (hκ3 : κ < 10)
    (hm : 2 ^ s ≤ (Mp.f - Mm.f) * 10 ^ m) (hm2 : m ≤ T.W) (hm3 : T.W < 256) :
    ∃ (ds : List (Fin 10)) (k : Int), ds.length ≤ κ + 1 + m ∧
      (∃ h : ds ≠ [], ds.head h ≠ 0 ∧ ds.getLast h ≠ 0) ∧
      (Mm.f : ℚ) ≤ digitsVal ds * 10 ^ k * 2 ^ s ∧
      (digitsVal ds * 10 ^ k * 2 ^ s : ℚ) ≤ Mp.f ∧
      -(m : Int) ≤ k ∧ k ≤ κ ∧ (Mp.f : ℚ) < (digitsVal ds + 1) * 10 ^ k * 2 ^ s ∧
      ∀ (K : Int) (o : Nat) (pre rest : List Nat), pre.length = o → ds.length ≤ rest.length →
        digitGen T Mp Mm (pre ++ rest) o K =
          .ok (pre ++ ds.map digitChar ++ rest.drop ds.length, ds.length, K + k) := by
  have h2s : 0 < 2 ^ s := by positivity
  have hp1κ1 : 10 ^ κ ≤ Mp.f / 2 ^ s := by rw [Nat.le_div_iff_mul_le h2s]; exact hκ1
  have hp1κ2 : Mp.f / 2 ^ s < 10 ^ (κ + 1) := by rw [Nat.div_lt_iff_lt_mul h2s]; exact hκ2
  have hp1ne : Mp.f / 2 ^ s ≠ 0 := by have : 0 < 10 ^ κ := by positivity
                                      omega
  have hp1lt : Mp.f / 2 ^ s < 10 ^ 10 :=
    lt_of_lt_of_le hp1κ2 (Nat.pow_le_pow_right (by norm_num) (by omega))
  obtain ⟨κ', hkd, hk1, hk2⟩ := kappaDiv_ok _ hp1ne hp1lt
  have hκκ : κ' = κ := by
    have h1 : κ' < κ + 1 := (Nat.pow_lt_pow_iff_right (by norm_num : 1 < 10)).mp (lt_of_le_of_lt hk1 hp1κ2)
    have h2 : κ < κ' + 1 := (Nat.pow_lt_pow_iff_right (by norm_num : 1 < 10)).mp (lt_of_le_of_lt hp1κ1 hk2)
    omega
  subst hκκ
  have hp132 : Mp.f / 2 ^ s % 2 ^ 32 = Mp.f / 2 ^ s := by
    apply Nat.mod_eq_of_lt
    rw [Nat.div_lt_iff_lt_mul h2s, ← pow_add]
    exact lt_of_lt_of_le hMp (Nat.pow_le_pow_right (by norm_num) (by omega))
  obtain ⟨ds, k', g1, g2, g3, g4, g5⟩ := genInt_ok (κ' + 1) (Mp.f / 2 ^ s) (10 ^ κ') hk2
    (by intro _; rfl)
  obtain ⟨hne, hhead⟩ := g4 (by omega) hk1
  have hdm := Nat.div_add_mod' Mp.f (2 ^ s)
  have hmodlt := Nat.mod_lt Mp.f h2s
  have hdelta : ∃ d, Mp.sub T.W Mm = .ok d ∧ d.f = Mp.f - Mm.f := by
    refine ⟨{ Mp with f := Mp.f - Mm.f }, ?_, rfl⟩
    unfold DiyFp.sub
    rw [assertM_true (by simp [hs1, hs2, hlt]), ok_bind]
    simp only [pure, Except.pure, Except.ok.injEq, DiyFp.mk.injEq, and_true]
    rw [show Mp.f + 2 ^ T.W - Mm.f = (Mp.f - Mm.f) + 2 ^ T.W by omega, Nat.add_mod_right,
      Nat.mod_eq_of_lt (by omega)]
  obtain ⟨dl, hdl1, hdl2⟩ := hdelta
  have hstart : ∀ (K : Int) (o : Nat) (buf : List Nat), digitGen T Mp Mm buf o K = (do
      let (buf, len, kappa) ← genIntLoop o (κ' + 1) (10 ^ κ') (Mp.f / 2 ^ s) buf 0
      if Mp.f % 2 ^ s ≤ Mp.f - Mm.f then pure (buf, len, K + (kappa : Nat))
      else do
        let buf ← memset buf (o + len) '0'.toNat kappa
        let len := len + kappa
        let (buf, len, kappa) ←
          genFracLoop T o s (2 ^ s) (decide (len > 0)) (T.W + 1) (Mp.f % 2 ^ s) (Mp.f - Mm.f) buf len 0
        pure (buf, len, K - (kappa : Nat))) := by
    intro K o buf
    unfold digitGen
    rw [assertM_true (by simp [hs1]), ok_bind, hdl1, ok_bind]
    have hsn : (-Mp.e).toNat = s := by rw [hs1]; simp
    have hrb : raisedBit T.W s = .ok (2 ^ s) := by
      unfold raisedBit; rw [if_pos (by omega), one_shl]
    simp only [hsn, hrb, ok_bind, Nat.shiftRight_eq_div_pow, hp132, Nat.and_two_pow_sub_one_eq_mod,
      hdl2, hkd]
    rw [assertM_true (by
      have : (Mp.f / 2 ^ s != 0) = true := by simpa using hp1ne
      rw [this]; rfl), ok_bind, if_pos hp1ne]
    by_cases hc : Mp.f % 2 ^ s ≤ Mp.f - Mm.f <;> simp [hc]
  by_cases hc : Mp.f % 2 ^ s ≤ Mp.f - Mm.f
  · -- close to delta
    have hval : (digitsVal ds : ℚ) * 10 ^ (k' : Int) * 2 ^ s = (Mp.f / 2 ^ s * 2 ^ s : Nat) := by
      rw [zpow_natCast, ← g2]; push_cast; ring
    refine ⟨ds, (k' : Int), by omega, ⟨hne, hhead, g3 hne⟩, ?_, ?_, by omega, ?_, ?_, ?_⟩
    · rw [hval]; exact_mod_cast (by omega : Mm.f ≤ Mp.f / 2 ^ s * 2 ^ s)
    · rw [hval]; exact_mod_cast (by omega : Mp.f / 2 ^ s * 2 ^ s ≤ Mp.f)
    · have : 0 < ds.length := List.length_pos_iff.mpr hne
      omega
    · rw [add_mul, add_mul, hval, one_mul]
      have h1 : (Mp.f : ℚ) < ((Mp.f / 2 ^ s * 2 ^ s + 2 ^ s : Nat) : ℚ) := by
        exact_mod_cast (by omega : Mp.f < Mp.f / 2 ^ s * 2 ^ s + 2 ^ s)
      have h2 : (1 : ℚ) ≤ 10 ^ (k' : Int) := by rw [zpow_natCast]; exact one_le_pow₀ (by norm_num)
      have h3 : (2 : ℚ) ^ s ≤ 10 ^ (k' : Int) * 2 ^ s := le_mul_of_one_le_left (by positivity) h2
      push_cast at h1 ⊢
      linarith
    · intro K o pre rest hpre hrest
      rw [hstart, g5 o pre rest 0 (by omega) hrest]
      rw [ok_bind]
      simp only [hc, if_true, pure, Except.pure, zero_add]
  · obtain ⟨es, p2', f1, f2, f3, f4, f5, fB, f6⟩ := genFrac_ok T s hsW m (T.W + 1) (Mp.f % 2 ^ s)
      (Mp.f - Mm.f) 0 (by omega) hmodlt hm (by omega)
    have hes : es ≠ [] := f4 (by omega)
    have hval : digitsVal (ds ++ List.replicate k' 0 ++ es) * 2 ^ s + p2' = Mp.f * 10 ^ es.length := by
      rw [digitsVal_append, digitsVal_append, digitsVal_replicate_zero, List.length_replicate,
        add_zero, g2]
      calc (Mp.f / 2 ^ s * 10 ^ es.length + digitsVal es) * 2 ^ s + p2'
          = Mp.f / 2 ^ s * 2 ^ s * 10 ^ es.length + (digitsVal es * 2 ^ s + p2') := by ring
        _ = _ := by rw [← f3, ← add_mul, hdm]
    have hlen : (ds ++ List.replicate k' 0 ++ es).length = κ' + 1 + es.length := by
      simp; omega
    have hpow : (0 : ℚ) < 10 ^ es.length := by positivity
    have hv2 : (digitsVal (ds ++ List.replicate k' 0 ++ es) : ℚ) * 10 ^ (-(es.length : Int)) * 2 ^ s =
        Mp.f - p2' / 10 ^ es.length := by
      have hq : (digitsVal (ds ++ List.replicate k' 0 ++ es) : ℚ) * 2 ^ s + p2' =
        Mp.f * 10 ^ es.length := by exact_mod_cast hval
      rw [zpow_neg, zpow_natCast]
      have : (digitsVal (ds ++ List.replicate k' 0 ++ es) : ℚ) * 2 ^ s =
        Mp.f * 10 ^ es.length - p2' := by linarith
      rw [mul_assoc, mul_comm ((10 : ℚ) ^ es.length)⁻¹, ← mul_assoc, this, sub_mul,
        mul_assoc, mul_inv_cancel₀ hpow.ne', mul_one, div_eq_mul_inv]
    refine ⟨ds ++ List.replicate k' 0 ++ es, -(es.length : Int), by omega, ⟨by simp [hne], ?_, ?_⟩,
      ?_, ?_, by omega, by omega, ?_, ?_⟩
    · simp only [List.append_assoc]; rw [List.head_append_of_ne_nil hne]; exact hhead
    · rw [List.getLast_append_of_ne_nil _ hes]; exact f5 hes
    · rw [hv2]
      have h1 : (p2' : ℚ) ≤ (Mp.f - Mm.f) * 10 ^ es.length := by
        have : (p2' : ℚ) ≤ ((Mp.f - Mm.f : Nat) : ℚ) * 10 ^ es.length := by exact_mod_cast f2
        rwa [Nat.cast_sub hlt] at this
      have h2 : (p2' : ℚ) / 10 ^ es.length ≤ Mp.f - Mm.f := by
        rw [div_le_iff₀ hpow]; exact h1
      linarith
    · rw [hv2]
      have : (0 : ℚ) ≤ (p2' : ℚ) / 10 ^ es.length := by positivity
      linarith
    · rw [add_mul, add_mul, hv2, one_mul, zpow_neg, zpow_natCast]
      have h1 : (p2' : ℚ) < 2 ^ s := by exact_mod_cast fB
      have h2 : (p2' : ℚ) / 10 ^ es.length < (10 ^ es.length)⁻¹ * 2 ^ s := by
        rw [div_eq_mul_inv, mul_comm]
        exact mul_lt_mul_of_pos_left h1 (by positivity)
      linarith
    · intro K o pre rest hpre hrest
      rw [hlen] at hrest
      rw [hstart, g5 o pre rest 0 (by omega) (by omega), ok_bind]
      simp only [hc, if_false]
      rw [memset_append (by simp [hpre]) (by simp; omega), ok_bind]
      have hds : 0 < ds.length := List.length_pos_iff.mpr hne
      have hpos : decide (0 + ds.length + k' > 0) = true := by simp; omega
      simp only [hpos]
      rw [f6 _ _ _ _ (by simp [hpre]) (by simp; omega), ok_bind]
      simp only [pure, Except.pure, Except.ok.injEq, Prod.mk.injEq]
      refine ⟨?_, ?_, ?_⟩
      · simp only [List.map_append, List.map_replicate, List.append_assoc, List.drop_drop,
          List.length_append, List.length_replicate]
        have : digitChar 0 = '0'.toNat := rfl
        rw [this, show ds.length + (k' + es.length) = ds.length + k' + es.length by ring]
      · simp; omega
      · push_cast; ring

end Floaxie
