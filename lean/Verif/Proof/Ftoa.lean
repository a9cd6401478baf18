import Verif.Proof.Grisu
import Verif.Proof.Prettify
import Verif.Model.Ftoa

/-! # The whole of `ftoa` -/

namespace Floaxie

open Spec FloatType

/-! ## The numeral printed -/

theorem fmt_isNeg (neg : Bool) (ds : List (Fin 10)) (k : Int) :
    (fmtNumeral neg ds k).isNeg = neg := by
  unfold fmtNumeral Numeral.isNeg
  have h : ((if neg = true then some true else none : Option Bool) == some true) = neg := by
    cases neg <;> rfl
  dsimp only
  revert h
  generalize (if neg = true then some true else none : Option Bool) = sg
  intro h
  split_ifs <;> exact h

theorem fmt_absValue (neg : Bool) (ds : List (Fin 10)) (k : Int) (hne : ds ≠ [])
    (hK : ((ds.length : Int) + k - 1).natAbs < 1000) :
    (fmtNumeral neg ds k).absValue = (digitsVal ds : ℚ) * 10 ^ k := by
  have hl : 0 < ds.length := List.length_pos_iff.mpr hne
  have expd : ∀ n : Nat, n < 1000 → digitsVal (expDigits n) = n := by
    intro n hn
    unfold expDigits
    rw [digitsVal_append]
    split_ifs
    · simp [digitsVal]; omega
    · simp [digitsVal]; omega
  unfold fmtNumeral Numeral.absValue Numeral.fracDigits Numeral.expValue
  dsimp only
  generalize (if neg = true then some true else none : Option Bool) = sg
  have hsv : ExpPart.value (ExpPart.mk false
      (if (ds.length : Int) + k - 1 < 0 then some true else none)
      (expDigits ((ds.length : Int) + k - 1).natAbs)) = (ds.length : Int) + k - 1 := by
    unfold ExpPart.value
    simp only [expd _ hK]
    by_cases h5 : (ds.length : Int) + k - 1 < 0
    · rw [if_pos h5, if_pos rfl]; omega
    · rw [if_neg h5, if_neg (by simp)]; omega
  by_cases h1 : max ((ds.length : Int) + k) (-k) ≤ 16
  · rw [if_pos h1]
    by_cases h2 : 0 ≤ k
    · rw [if_pos h2]
      obtain ⟨n, rfl⟩ : ∃ n : Nat, k = n := ⟨k.toNat, by omega⟩
      dsimp only
      simp only [Option.getD_none, List.append_nil]
      rw [digitsVal_append, digitsVal_replicate_zero, List.length_replicate]
      simp
    · rw [if_neg h2]
      by_cases h3 : 0 < (ds.length : Int) + k
      · rw [if_pos h3]
        dsimp only
        rw [Option.getD_some, List.take_append_drop, List.length_drop]
        congr 2
        omega
      · rw [if_neg h3]
        dsimp only
        rw [Option.getD_some, digitsVal_append, digitsVal_append, digitsVal_replicate_zero]
        simp only [List.length_append, List.length_replicate, digitsVal, List.foldl]
        simp only [Fin.val_zero, Nat.zero_mul, Nat.zero_add]
        congr 2
        omega
  · rw [if_neg h1]
    dsimp only
    rw [hsv]
    by_cases h4 : 1 < ds.length
    · rw [if_pos h4, Option.getD_some, List.take_append_drop, List.length_drop]
      congr 2
      omega
    · rw [if_neg h4, Option.getD_none, List.append_nil, List.take_of_length_le (by omega)]
      congr 2
      simp; omega

theorem fmt_value (neg : Bool) (ds : List (Fin 10)) (k : Int) (hne : ds ≠ [])
    (hK : ((ds.length : Int) + k - 1).natAbs < 1000) :
    (fmtNumeral neg ds k).value =
      if neg then -((digitsVal ds : ℚ) * 10 ^ k) else (digitsVal ds : ℚ) * 10 ^ k := by
  unfold Numeral.value
  rw [fmt_isNeg, fmt_absValue _ _ _ hne hK]

theorem expDigits_len (n : Nat) : 2 ≤ (expDigits n).length ∧ (expDigits n).length ≤ 3 := by
  unfold expDigits; split_ifs <;> simp

theorem fmtBody_len (ds : List (Fin 10)) (k : Int) (hne : ds ≠ []) :
    ds.length ≤ (fmtBody ds k).length ∧ (fmtBody ds k).length ≤ max 18 (ds.length + 6) := by
  have hl : 0 < ds.length := List.length_pos_iff.mpr hne
  have := expDigits_len ((ds.length : Int) + k - 1).natAbs
  unfold fmtBody fmtNumeral Numeral.text Numeral.mantText Numeral.expText ExpPart.text
  dsimp only
  simp only [Bool.false_eq_true, if_false]
  have h5 : (signText (if (ds.length : Int) + k - 1 < 0 then some true else none)).length ≤ 1 := by
    split_ifs <;> simp [signText]
  split_ifs <;> simp [signText] at h5 ⊢ <;> omega

theorem numeral_text_ne_zero (n : Numeral) : ∀ c ∈ n.text, c ≠ 0 := by
  have hs : ∀ s : Option Bool, ∀ c ∈ signText s, c ≠ 0 := by
    intro s; rcases s with _ | _ | _ <;> simp [signText]
  have hd : ∀ ds : List (Fin 10), ∀ c ∈ ds.map digitChar, c ≠ 0 := by
    intro ds c hc
    rw [List.mem_map] at hc
    obtain ⟨d, _, rfl⟩ := hc
    simp [digitChar]
  intro c hc
  unfold Numeral.text Numeral.mantText Numeral.expText ExpPart.text at hc
  simp only [List.mem_append] at hc
  rcases hc with (hc | hc | hc) | hc
  · exact hs _ c hc
  · exact hd _ c hc
  · split at hc
    · simp at hc
    · rcases List.mem_cons.mp hc with h | h
      · subst h; decide
      · exact hd _ c h
  · split at hc
    · simp at hc
    · rcases List.mem_cons.mp hc with h | h
      · subst h; split_ifs <;> decide
      · rcases List.mem_append.mp h with h | h
        · exact hs _ c h
        · exact hd _ c h

/-! ## `ftoa` -/

theorem absBits_eq (T : FloatType) (b : Nat) : T.absBits b = absPat T b := rfl

theorem absPat_lt (T : FloatType) (b : Nat) : absPat T b < 2 ^ (T.W - 1) :=
  Nat.mod_lt _ (by positivity)

theorem absPat_idem (T : FloatType) (b : Nat) : absPat T (absPat T b) = absPat T b :=
  Nat.mod_mod _ _

theorem two_W (T : FloatType) : 2 ^ T.W = 2 * 2 ^ (T.W - 1) := by
  cases T <;> simp [FloatType.W]

theorem ofFloat_absPat (T : FloatType) (b : Nat) (h : b < 2 ^ T.W) :
    DiyFp.ofFloat T b = DiyFp.ofFloat T (absPat T b) := by
  have := absPat_lt T b
  have := two_W T
  rw [ofFloat_eq T b h, ofFloat_eq T _ (by omega), absPat_idem]

theorem grisu2_absPat (T : FloatType) (b : Nat) (h : b < 2 ^ T.W) :
    grisu2 T b = grisu2 T (absPat T b) := by
  funext buf o
  unfold grisu2 grisu2At boundaries
  rw [ofFloat_absPat T b h]

theorem isNegative_eq {T : FloatType} {b : Nat} (h : b < 2 ^ T.W) :
    isNegative T b = decide (signBit T b = 1) := by
  unfold isNegative signBit
  have h2 := two_W T
  congr 1
  rw [h2] at h
  generalize 2 ^ (T.W - 1) = m at *
  rcases Nat.lt_or_ge b m with hb | hb
  · rw [Nat.div_eq_of_lt hb]; simp; omega
  · rw [show b / m = 1 from Nat.div_eq_of_lt_le (by omega) (by omega)]; simp; omega

theorem pow_range (T : FloatType) {k : Int} (h1 : T.powLo ≤ k) (h2 : k ≤ T.powHi) :
    k.natAbs ≤ 343 := by
  cases T <;> simp [powLo, powHi, pow0Offset] at h1 h2 <;> omega

/-- `ftoa` of a finite non-zero value: the text depends on the magnitude and the
sign only, and exactly its characters and the terminator are written. -/
theorem ftoa_finite (T : FloatType) (a : Nat) (ha : a < posInf T) (h0 : a ≠ 0) :
    ∃ (ds : List (Fin 10)) (k : Int), ds.length ≤ maxSig T ∧
      (∃ h : ds ≠ [], ds.head h ≠ 0 ∧ ds.getLast h ≠ 0) ∧
      Identifies T (digitsVal ds * 10 ^ k) a ∧ T.powLo ≤ k ∧ k ≤ T.powHi ∧
      (∀ rest : List Nat, ds.length ≤ rest.length →
        grisu2 T a rest 0 = .ok (ds.map digitChar ++ rest.drop ds.length, ds.length, k)) ∧
      ∀ (bits : Nat), bits < 2 ^ T.W → absPat T bits = a → ∀ (buf : List Nat),
        (fmtNumeral (isNegative T bits) ds k).text.length + 1 ≤ buf.length →
        ftoa T bits buf =
          .ok ((fmtNumeral (isNegative T bits) ds k).text ++
                0 :: buf.drop ((fmtNumeral (isNegative T bits) ds k).text.length + 1),
               (fmtNumeral (isNegative T bits) ds k).text.length) := by
  have haW : a < 2 ^ T.W := (isFinite_of_lt ha).1
  have haa := absPat_of_lt ha
  obtain ⟨ds, k, hlen, ⟨hne, hhead, hlast⟩, hid, hk1, hk2, hg⟩ :=
    grisu2_ok T a haW (by rw [haa]; exact ha) (by rw [haa]; exact h0)
  rw [haa] at hid
  refine ⟨ds, k, hlen, ⟨hne, hhead, hlast⟩, hid, hk1, hk2, fun rest hr => hg 0 [] rest rfl hr, ?_⟩
  intro bits hb hab buf hbuf
  have hkr := pow_range T hk1 hk2
  have hl : 0 < ds.length := List.length_pos_iff.mpr hne
  have hms : ds.length ≤ 17 := by cases T <;> simp [maxSig] at hlen <;> omega
  obtain ⟨hb1, hb2⟩ := fmtBody_len ds k hne
  rw [fmt_text] at hbuf ⊢
  unfold ftoa
  have hn : isNan T bits = false := by
    unfold isNan; rw [absBits_eq, hab, infBits_eq]; simp; omega
  have hi : isInf T bits = false := by
    unfold isInf; rw [absBits_eq, hab, infBits_eq]; simp; omega
  have hz : isZero T bits = false := by
    unfold isZero; rw [absBits_eq, hab]; simpa using h0
  rw [hn, hi, hz]
  simp only [Bool.false_eq_true, if_false]
  rw [grisu2_absPat T bits hb, hab]
  unfold decimalScientificThreshold
  cases hs : isNegative T bits
  · rw [hs] at hbuf
    simp only [Bool.false_eq_true, if_false, List.nil_append] at hbuf ⊢
    have hw := wr_app (A := []) (R := buf) (i := 0) (c := '-'.toNat) rfl (by omega)
    rw [List.nil_append] at hw
    rw [hw, ok_bind]
    rw [hg 0 [] _ rfl (by simp; omega), ok_bind]
    dsimp only
    have hp := prettify_ok ds k hne [] (('-'.toNat :: buf.drop 1).drop ds.length) (by omega)
      (by omega) (by simp; omega)
    simp only [List.nil_append, List.length_nil] at hp ⊢
    rw [hp, ok_bind]
    simp only [pure, Except.pure, Nat.zero_add, Except.ok.injEq, Prod.mk.injEq, and_true]
    congr 2
    obtain ⟨m, hm⟩ : ∃ m, (fmtBody ds k).length + 1 = (ds.map digitChar).length + (m + 1) := by
      refine ⟨(fmtBody ds k).length - ds.length, ?_⟩
      simp; omega
    rw [hm, List.drop_length_add_append, List.drop_drop]
    rw [show ds.length + (m + 1) = (ds.length + m) + 1 by ring, List.drop_succ_cons, List.drop_drop]
    congr 1; simp; omega
  · rw [hs] at hbuf
    simp only [if_true, List.length_append, List.length_singleton] at hbuf ⊢
    have hw := wr_app (A := []) (R := buf) (i := 0) (c := '-'.toNat) rfl (by omega)
    rw [List.nil_append] at hw
    rw [hw, ok_bind]
    rw [show [] ++ '-'.toNat :: buf.drop 1 = ['-'.toNat] ++ buf.drop 1 by simp]
    rw [hg 1 ['-'.toNat] _ rfl (by simp; omega), ok_bind]
    dsimp only
    have hp := prettify_ok ds k hne ['-'.toNat] ((buf.drop 1).drop ds.length) (by omega)
      (by omega) (by simp; omega)
    simp only [List.length_singleton] at hp
    rw [List.append_assoc, hp, ok_bind]
    simp only [pure, Except.pure, Except.ok.injEq, Prod.mk.injEq, and_true]
    rw [List.append_assoc]
    congr 3
    obtain ⟨m, hm⟩ : ∃ m, (fmtBody ds k).length + 1 = (ds.map digitChar).length + (m + 1) := by
      refine ⟨(fmtBody ds k).length - ds.length, ?_⟩
      simp; omega
    rw [hm, List.drop_length_add_append, List.drop_drop, List.drop_drop]
    congr 1; simp at hm; omega

theorem wrStr_ok : ∀ (s A R : List Nat) (o : Nat), o = A.length → s.length ≤ R.length →
    wrStr (A ++ R) o s = .ok (A ++ (s ++ R.drop s.length)) := by
  intro s
  induction s with
  | nil => intro A R o _ _; simp [wrStr]
  | cons c cs ih =>
    intro A R o ho hR
    rw [List.length_cons] at hR
    rw [wrStr, wr_app ho (by omega), ok_bind]
    rw [show A ++ c :: R.drop 1 = (A ++ [c]) ++ R.drop 1 by simp]
    rw [ih _ _ _ (by simp; omega) (by simp; omega)]
    rw [List.drop_drop, List.length_cons, Nat.add_comm 1]
    simp

/-- Text of the values that are not finite non-zero numbers. -/
def specialText (T : FloatType) (bits : Nat) : List Nat :=
  if absPat T bits = 0 then ['0'.toNat]
  else if absPat T bits = posInf T then
    if isNegative T bits then ['-'.toNat, 'i'.toNat, 'n'.toNat, 'f'.toNat]
    else ['i'.toNat, 'n'.toNat, 'f'.toNat]
  else ['n'.toNat, 'a'.toNat, 'n'.toNat]

theorem ftoa_special (T : FloatType) (bits : Nat)
    (h : absPat T bits = 0 ∨ posInf T ≤ absPat T bits) (buf : List Nat)
    (hbuf : (specialText T bits).length + 1 ≤ buf.length) :
    ftoa T bits buf = .ok (specialText T bits ++ 0 :: buf.drop ((specialText T bits).length + 1),
      (specialText T bits).length) := by
  have hp := posInf_pos T
  have key : ∀ s : List Nat, s.length ≤ buf.length →
      wrStr buf 0 s = .ok (s ++ buf.drop s.length) := by
    intro s hs
    have := wrStr_ok s [] buf 0 rfl hs
    simpa using this
  unfold ftoa isNan isInf isZero
  rw [absBits_eq, infBits_eq]
  unfold specialText at hbuf ⊢
  by_cases h1 : absPat T bits = 0
  · simp only [h1] at hbuf ⊢
    simp only [if_true, List.length_singleton] at hbuf ⊢
    rw [if_neg (by simp), if_neg (by simp; omega), if_pos (by simp), key _ (by simpa using hbuf), ok_bind]
    simp [pure, Except.pure]
  · have h2 : posInf T ≤ absPat T bits := by omega
    by_cases h3 : absPat T bits = posInf T
    · have hp' : ¬ posInf T = 0 := by omega
      simp only [hp', h3, if_true, if_false] at hbuf ⊢
      rw [if_neg (by simp), if_pos (by simp)]
      cases hs : isNegative T bits
      · simp only [hs, Bool.false_eq_true, if_false] at hbuf ⊢
        rw [if_pos (by simp), key _ (by simp at hbuf ⊢; omega), ok_bind]
        simp [pure, Except.pure]
      · simp only [hs, if_true] at hbuf ⊢
        rw [if_neg (by simp), key _ (by simp at hbuf ⊢; omega), ok_bind]
        simp [pure, Except.pure]
    · simp only [h1, h3, if_false] at hbuf ⊢
      rw [if_pos (by simp; omega), key _ (by simpa using hbuf), ok_bind]
      simp [pure, Except.pure]

/-- Everything about the memory effects of `ftoa` at once. -/
theorem ftoa_total (T : FloatType) (bits : Nat) (hb : bits < 2 ^ T.W) :
    ∃ text : List Nat, (∀ c ∈ text, c ≠ 0) ∧ text.length + 1 ≤ maxBufferSize T ∧
      ∀ buf : List Nat, text.length + 1 ≤ buf.length →
        ftoa T bits buf = .ok (text ++ 0 :: buf.drop (text.length + 1), text.length) := by
  by_cases h : absPat T bits = 0 ∨ posInf T ≤ absPat T bits
  · refine ⟨specialText T bits, ?_, ?_, ftoa_special T bits h⟩
    · unfold specialText; split_ifs <;> simp
    · have : (specialText T bits).length ≤ 4 := by unfold specialText; split_ifs <;> simp
      unfold maxBufferSize maxDigits halfDigits10
      cases T <;> simp only [digits10] <;> omega
  · obtain ⟨ds, k, hlen, ⟨hne, -, -⟩, -, -, -, -, hf⟩ :=
      ftoa_finite T (absPat T bits) (by omega) (by omega)
    refine ⟨_, numeral_text_ne_zero _, ?_, hf bits hb rfl⟩
    have := (fmtBody_len ds k hne).2
    rw [fmt_text, List.length_append]
    have : (if isNegative T bits = true then ['-'.toNat] else []).length ≤ 1 := by
      split_ifs <;> simp
    unfold maxBufferSize maxDigits halfDigits10
    cases T <;> simp only [digits10, maxSig] at * <;> omega

end Floaxie
