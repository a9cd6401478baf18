import Verif.Proof.Round

/-! # `parse_exponent` and `krosh` on numerals -/

namespace Floaxie

open Spec FloatType

theorem readable_of_lt {e : ExpPart} (h : digitsVal e.digits < 10 ^ 4) : e.Readable := by
  refine ⟨by omega, fun h0 hd => ?_⟩
  have := Nat.le_of_dvd (Nat.pos_of_ne_zero h0) hd
  omega

theorem toInt32_small {x : Nat} (h : x < 2 ^ 31) : toInt32 x = x := by
  unfold toInt32
  rw [Nat.mod_eq_of_lt (by omega)]
  dsimp only
  rw [if_pos h]

theorem parseExponent_none {mem : List Nat} {str c : Nat} (hc : mem[str]? = some c)
    (h : c ≠ 'e'.toNat ∧ c ≠ 'E'.toNat) : parseExponent mem str = .ok { value := 0, strEnd := str } := by
  unfold parseExponent
  rw [rd_of hc, ok_bind, if_pos h]; rfl

theorem parseExponent_ok {mem : List Nat} {str c : Nat} {e : ExpPart} {R : List Nat}
    (hm : mem.drop str = e.text ++ c :: R) (hne : e.digits ≠ []) (hr : e.Readable)
    (hc : ¬ IsDig c) (hdot : c ≠ '.'.toNat) (hl : e.text.length ≤ 2050) :
    parseExponent mem str = .ok { value := e.value, strEnd := str + e.text.length } := by
  set n : Numeral := ⟨e.sign, e.digits, none, none⟩ with hn
  have htext : e.text = (if e.upper then 'E'.toNat else 'e'.toNat) :: scanText n := by
    simp [ExpPart.text, scanText, Numeral.mantText, hn]
  rw [htext] at hm
  have hg := get_of_drop (c := if e.upper then 'E'.toNat else 'e'.toNat) (by rw [hm]; rfl)
  have hm1 : mem.drop (str + 1) = scanText n ++ c :: R := by
    have := drop_of_get hg
    rw [hm, List.cons_append, List.cons.injEq] at this
    exact this.2.symm
  unfold parseExponent
  rw [rd_of hg, ok_bind, if_neg (by cases e.upper <;> decide)]
  have hend : Ender n c := by
    refine ⟨hc, fun h => absurd h hdot, fun _ => ?_, fun _ => Or.inl hne⟩
    simp [scanText, Numeral.mantText, hn, hne]
  have hlen : (scanText n).length ≤ 2049 := by rw [htext] at hl; simpa using hl
  obtain ⟨P, K, frac, h1, -, h2⟩ := parseDigits_num (T := .float) hm1 hend hlen
  rw [h2, ok_bind]
  dsimp only
  -- the digits
  have hD : allDigits n = e.digits := by simp [allDigits, Numeral.fracDigits, hn]
  have hF : n.fracDigits.length = 0 := by simp [Numeral.fracDigits, hn]
  have hmv : mantVal n = digitsVal e.digits := by
    unfold mantVal; rw [hD, hF]; simp
  have hshort : Short FloatType.float.digits10 (mantVal n) :=
    ⟨digitsVal e.digits, 0, hr.1, by rw [hmv]; simp⟩
  obtain ⟨g1, -, -⟩ := h1.short (by decide) hshort
  have hK : ∃ L : Nat, K = L ∧ L ≤ 3 ∧ P * 10 ^ L = digitsVal e.digits := by
    rcases h1 with ⟨z1, rfl, rfl, -⟩ | ⟨z, ds, tail, -, ⟨d, ds', hds, hd0⟩, -, hPd, hK, -⟩
    · rw [hD] at z1
      exact ⟨0, rfl, by norm_num, by rw [digitsVal_all_zero z1]; simp⟩
    · rw [hF] at hK
      refine ⟨tail.length, by simpa using hK, ?_, ?_⟩
      · by_contra hc
        rw [hmv, hK] at g1
        simp only [Nat.cast_zero, sub_zero, zpow_natCast] at g1
        have g1' : digitsVal e.digits = P * 10 ^ tail.length := by exact_mod_cast g1
        by_cases hz : digitsVal e.digits = 0
        · have hP : P = 0 := by
            rcases Nat.mul_eq_zero.mp (g1'.symm.trans hz) with h | h
            · exact h
            · have : 0 < 10 ^ tail.length := by positivity
              omega
          have h5 := digitsVal_head (ds := ds') hd0
          rw [← hds, ← hPd, hP] at h5
          have : 0 < 10 ^ ds'.length := by positivity
          omega
        · apply hr.2 hz
          rw [g1', show tail.length = 4 + (tail.length - 4) by omega, pow_add]
          exact ⟨P * 10 ^ (tail.length - 4), by ring⟩
      · rw [hmv, hK] at g1
        simp only [Nat.cast_zero, sub_zero, zpow_natCast] at g1
        exact_mod_cast g1.symm
  obtain ⟨L, rfl, hL3, hPL⟩ := hK
  have hlt := hr.1
  have hidx : (((L : Int) % 2 ^ 64).toNat) = L := by omega
  rw [hidx]
  unfold seqPow
  rw [if_pos (show L ≤ exponentDecimalDigits from hL3), ok_bind]
  have hpw : 10 ^ L % 2 ^ 32 = 10 ^ L := by interval_cases L <;> norm_num
  rw [hpw, hPL, toInt32_small (by omega)]
  have hval : e.value = if n.isNeg then -(digitsVal e.digits : Int) else digitsVal e.digits := by
    unfold ExpPart.value Numeral.isNeg
    simp only [hn, beq_iff_eq]
  have hfin : str + 1 + (scanText n).length = str + e.text.length := by
    rw [htext]; simp; omega
  rw [hval, hfin]
  cases n.isNeg
  · rfl
  · simp only [Bool.not_true, Bool.not_false, if_true]
    unfold chkInt
    rw [if_pos (by omega)]; rfl

/-! ## `krosh` -/

/-- The last part of `krosh` (krosh.h:565-604), from the mantissa `w` and the
total decimal exponent `K`. -/
def kroshTail (T : FloatType) (w : DiyFp) (K : Int) (pos : Bool) (strEnd : Nat) : M KroshResult :=
  if K ≠ 0 ∧ ¬ (T.powLo ≤ K ∧ K ≤ T.powHi) then
    if ¬ (T.powLo ≤ K) then
      pure { value := 0, status := .underflow, strEnd := strEnd, isAccurate := true }
    else
      pure { value := T.infBits, status := .overflow, strEnd := strEnd, isAccurate := true }
  else do
    let w ← scaleStep T w K
    let v ← w.downsample T
    pure { value := if !pos then negBits T v.value else v.value
           strEnd := strEnd, status := v.status, isAccurate := v.isAccurate }

theorem krosh_eq_tail {T : FloatType} {mem : List Nat} {str : Nat} {mp : MantissaParseResult}
    {ep : ExponentParseResult} (h1 : parseMantissa T mem str = .ok mp) (hs : mp.special = .no)
    (hf : mp.value.f ≠ 0) (h2 : parseExponent mem mp.strEnd = .ok ep)
    (hK : -(2 ^ 31) ≤ mp.K + ep.value ∧ mp.K + ep.value < 2 ^ 31) :
    krosh T mem str = kroshTail T mp.value (mp.K + ep.value) mp.sign ep.strEnd := by
  unfold krosh kroshTail
  rw [h1, ok_bind, if_pos ⟨hs, hf⟩, h2, ok_bind]
  unfold chkInt
  rw [if_pos hK, ok_bind]
  by_cases hc : mp.K + ep.value ≠ 0 ∧ ¬ (T.powLo ≤ mp.K + ep.value ∧ mp.K + ep.value ≤ T.powHi)
  · rw [if_pos hc, if_pos hc]
  · rw [if_neg hc, if_neg hc]
    unfold scaleStep
    rw [bind_assoc]

theorem scan_split {n : Numeral} : n.text = scanText n ++ n.expText := by
  simp [Numeral.text, scanText]

/-- The mantissa of a numeral. -/
theorem parseMantissa_num {T : FloatType} {mem : List Nat} {str : Nat} {n : Numeral} {c : Nat} {R : List Nat}
    (hm : mem.drop str = scanText n ++ c :: R) (hc : Ender n c) (hl : (scanText n).length ≤ 2049) :
    ∃ P K frac w, Reads T.digits10 n P K frac ∧ ReadsExact T.digits10 n P K frac ∧
      (P ≠ 0 → adjustMantissa T P frac = .ok w) ∧ (P = 0 → w = ⟨0, 0⟩) ∧
      parseMantissa T mem str = .ok { value := w, K := K, strEnd := str + (scanText n).length, special := .no, sign := !n.isNeg } := by
  obtain ⟨P, K, frac, h1, h1', h2⟩ := parseDigits_num (T := T) hm hc hl
  by_cases hP : P = 0
  · refine ⟨P, K, frac, ⟨0, 0⟩, h1, h1', fun h => absurd hP h, fun _ => rfl, ?_⟩
    unfold parseMantissa
    rw [h2, ok_bind]
    dsimp only
    rw [if_pos rfl, if_neg (by simpa using hP), hP]
    rfl
  · obtain ⟨w, -, w1, -⟩ := mantissa_ok h1 hP
    refine ⟨P, K, frac, w, h1, h1', fun _ => w1, fun h => absurd h hP, ?_⟩
    unfold parseMantissa
    rw [h2, ok_bind]
    dsimp only
    rw [if_pos rfl, if_pos (by simpa using hP), w1]
    rfl

theorem Spec.NumeralAt.scan {mem : List Nat} {str : Nat} {n : Numeral} (h : NumeralAt mem str n) :
    ∃ c R, mem.drop str = scanText n ++ c :: R ∧ Ender n c ∧
      mem.drop (str + (scanText n).length) = c :: R := by
  obtain ⟨c, R, hm, he⟩ := h.text
  have hv := h.valid.1
  have hword : n.int ≠ [] ∨ n.frac.isSome = true := by
    by_contra hc
    push Not at hc
    obtain ⟨h1, h2⟩ := hc
    apply hv
    cases hf : n.frac with
    | none => simp [h1, Numeral.fracDigits, hf]
    | some f => rw [hf] at h2; simp at h2
  have hscan : scanText n ≠ [] := by
    intro h0
    obtain ⟨-, h2, h3⟩ := scan_empty h0
    rcases hword with h | h
    · exact h h2
    · rw [h3] at h; simp at h
  rw [scan_split, List.append_assoc] at hm
  have hdrop : mem.drop (str + (scanText n).length) = n.expText ++ c :: R := by
    rw [← List.drop_drop, hm, List.drop_left]
  cases hx : n.exp with
  | none =>
    have : n.expText = [] := by simp [Numeral.expText, hx]
    rw [this, List.nil_append] at hm hdrop
    refine ⟨c, R, hm, ⟨he.notDigit, ?_, fun _ => hscan, fun _ => hword⟩, hdrop⟩
    intro hd
    have := (he.noExp hx).2.2 hd
    exact Option.isSome_iff_ne_none.mpr this
  | some e =>
    have : n.expText = e.text := by simp [Numeral.expText, hx]
    rw [this] at hm hdrop
    refine ⟨if e.upper then 'E'.toNat else 'e'.toNat, signText e.sign ++ e.digits.map digitChar ++ c :: R,
      by rw [hm]; simp [ExpPart.text], ⟨?_, ?_, fun _ => hscan, fun _ => hword⟩,
      by rw [hdrop]; simp [ExpPart.text]⟩
    · unfold IsDig; cases e.upper <;> decide
    · intro h; exfalso; revert h; cases e.upper <;> decide

theorem Spec.NumeralAt.exponent {mem : List Nat} {str : Nat} {n : Numeral} (h : NumeralAt mem str n) :
    parseExponent mem (str + (scanText n).length) =
      .ok { value := n.expValue, strEnd := str + n.text.length } := by
  obtain ⟨c, R, hm, he⟩ := h.text
  rw [scan_split, List.append_assoc] at hm
  have hdrop : mem.drop (str + (scanText n).length) = n.expText ++ c :: R := by
    rw [← List.drop_drop, hm, List.drop_left]
  have hlen : str + n.text.length = str + (scanText n).length + n.expText.length := by
    rw [scan_split]; simp; omega
  rw [hlen]
  cases hx : n.exp with
  | none =>
    have h1 : n.expText = [] := by simp [Numeral.expText, hx]
    have h2 : n.expValue = 0 := by simp [Numeral.expValue, hx]
    rw [h1] at hdrop ⊢
    have h3 := he.noExp hx
    rw [parseExponent_none (get_of_drop hdrop) ⟨h3.1, h3.2.1⟩, h2]; rfl
  | some e =>
    have h1 : n.expText = e.text := by simp [Numeral.expText, hx]
    have h2 : n.expValue = e.value := by simp [Numeral.expValue, hx]
    rw [h1] at hdrop ⊢
    rw [parseExponent_ok hdrop (h.valid.2 e hx) (h.exp e hx) he.notDigit
      (he.noDot (by rw [hx]; simp)) (h.expLen e hx), h2]

theorem Reads.K_bound {κ : Nat} {n : Numeral} {P : Nat} {K : Int} {frac : Nat} (h1 : Reads κ n P K frac) (hP : P ≠ 0)
    (hml : (scanText n).length ≤ 2049) : -2050 ≤ K ∧ K ≤ 2050 := by
  have hlen := scanText_length n
  have hnf : n.fracDigits.length ≤ (allDigits n).length := by simp [allDigits]
  rcases h1 with ⟨-, h, -⟩ | ⟨z, ds, tail, g1, -, -, -, hK, -⟩
  · exact absurd h hP
  · have : tail.length ≤ (allDigits n).length := by rw [g1]; simp; omega
    omega

theorem Spec.NumeralAt.exp_bound {mem : List Nat} {str : Nat} {n : Numeral} (h : NumeralAt mem str n) :
    -(10 ^ 9) < n.expValue ∧ n.expValue < 10 ^ 9 := by
  unfold Numeral.expValue
  cases hx : n.exp with
  | none => simp
  | some e =>
    have := (h.exp e hx).1
    simp only
    unfold ExpPart.value
    split_ifs <;> omega

/-- `krosh` on a numeral of value zero. -/
theorem krosh_zero {T : FloatType} {mem : List Nat} {str : Nat} {n : Numeral} (h : NumeralAt mem str n)
    (h0 : n.absValue = 0) :
    krosh T mem str = .ok { value := if n.isNeg then negBits T 0 else 0, strEnd := str + (scanText n).length, status := .success, isAccurate := true } := by
  obtain ⟨c, R, hm, he, hd⟩ := h.scan
  obtain ⟨P, K, frac, w, h1, -, h2, h3, h4⟩ := parseMantissa_num (T := T) hm he h.mantLen
  have hP : P = 0 := by
    rw [h1.zero_iff]
    rw [absValue_eq] at h0
    rcases mul_eq_zero.mp h0 with h | h
    · exact h
    · exact absurd h (by positivity)
  unfold krosh
  rw [h4, ok_bind, h3 hP]
  dsimp only
  rw [if_neg (by simp)]
  cases n.isNeg <;> rfl

/-- `krosh` on a numeral of non-zero value: the mantissa `w` is close to
`Y`, with `Y * 10^K` the magnitude of the numeral; exact for short ones. -/
theorem krosh_num {T : FloatType} {mem : List Nat} {str : Nat} {n : Numeral} (h : NumeralAt mem str n)
    (h0 : n.absValue ≠ 0) :
    ∃ (w : DiyFp) (Y : ℚ) (K : Int), 2 ^ (T.W - 1) ≤ w.f ∧ w.f < 2 ^ T.W ∧ w.e ≤ 1 ∧ -(T.W : Int) ≤ w.e ∧
      n.absValue = Y * 10 ^ K ∧ 1 ≤ Y ∧ Y < 10 ^ T.digits10 ∧
      |Y - w.f * 2 ^ w.e| ≤ mantErr T * 2 ^ w.e ∧
      (Short T.digits10 n.absValue → Y = w.f * 2 ^ w.e) ∧
      (∀ (m : Nat) (k : Int), m < 10 ^ T.digits10 → n.absValue = m * 10 ^ k → k ≤ K) ∧
      (Short T.digits10 n.absValue → ∃ P : Nat, Y = P ∧ ¬ 10 ∣ P) ∧
      krosh T mem str = kroshTail T w K (!n.isNeg) (str + n.text.length) := by
  obtain ⟨c, R, hm, he, hd⟩ := h.scan
  obtain ⟨P, K, frac, w, h1, -, h2, h3, h4⟩ := parseMantissa_num (T := T) hm he h.mantLen
  have hmv : mantVal n ≠ 0 := by
    intro hz; apply h0; rw [absValue_eq, hz, zero_mul]
  have hP : P ≠ 0 := fun hz => hmv (h1.zero_iff.mp hz)
  obtain ⟨w', Y, w1, w2, w3, w4, w5, w6, w7, w8, w9⟩ := mantissa_ok h1 hP
  have hww : w = w' := by
    have := h2 hP
    rw [w1] at this
    exact (Except.ok.inj this).symm
  subst hww
  have h10K : (0 : ℚ) < 10 ^ K := by positivity
  have h10e : (0 : ℚ) < 10 ^ n.expValue := by positivity
  have hbounds := h1.bounds
  have hY1 : (P : ℚ) ≤ Y := by
    have := hbounds.1; rw [w4] at this; exact le_of_mul_le_mul_right this h10K
  have hY2 : Y < P + 1 := by
    have := hbounds.2; rw [w4] at this; exact lt_of_mul_lt_mul_right this h10K.le
  have hP1 : (1 : ℚ) ≤ P := by exact_mod_cast Nat.one_le_iff_ne_zero.mpr hP
  have hPlt : (P : ℚ) + 1 ≤ 10 ^ T.digits10 := by exact_mod_cast h1.lt
  have hval : n.absValue = Y * 10 ^ (K + n.expValue) := by
    rw [absValue_eq, w4, zpow_add₀ (by norm_num)]; ring
  -- shortness of the mantissa part
  have hshort : ∀ (m : Nat) (k : Int), m < 10 ^ T.digits10 → n.absValue = m * 10 ^ k →
      mantVal n = m * 10 ^ (k - n.expValue) := by
    intro m k _ hmk
    rw [absValue_eq] at hmk
    rw [zpow_sub₀ (by norm_num), ← mul_div_assoc, ← hmk]
    field_simp
  have hKb := h1.K_bound hP h.mantLen
  have hEb := h.exp_bound
  refine ⟨w, Y, K + n.expValue, w2, w3, w8, w9, hval, by linarith, by linarith, w6, ?_, ?_, ?_, ?_⟩
  · rintro ⟨m, k, hm, hmk⟩
    exact w7 ⟨m, _, hm, hshort m k hm hmk⟩
  · intro m k hm hmk
    have hs := hshort m k hm hmk
    obtain ⟨g1, -, g3⟩ := h1.short (digits10_le T).1 ⟨m, _, hm, hs⟩
    by_contra hc
    obtain ⟨j, hj⟩ : ∃ j : Nat, k - n.expValue = K + (j + 1 : Nat) :=
      ⟨(k - n.expValue - K - 1).toNat, by omega⟩
    rw [hs, hj, zpow_add₀ (by norm_num), zpow_natCast] at g1
    have g2 : (m : ℚ) * 10 ^ (j + 1) = P := by
      apply mul_right_cancel₀ h10K.ne'
      rw [← g1]; ring
    have g4 : m * 10 ^ (j + 1) = P := by exact_mod_cast g2
    exact g3 hP (by rw [← g4, pow_succ]; exact ⟨m * 10 ^ j, by ring⟩)
  · rintro ⟨m, k, hm, hmk⟩
    obtain ⟨g1, -, g3⟩ := h1.short (digits10_le T).1 ⟨m, _, hm, hshort m k hm hmk⟩
    exact ⟨P, mul_right_cancel₀ h10K.ne' (w4.symm.trans g1), g3 hP⟩
  · have hf : w.f ≠ 0 := by
      have : 0 < 2 ^ (T.W - 1) := by positivity
      omega
    rw [krosh_eq_tail h4 rfl hf h.exponent (by dsimp only; omega)]

end Floaxie
