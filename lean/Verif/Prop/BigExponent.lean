import Verif.Prop.Total
import Verif.Prop.Same
import Verif.Prop.SignLoss
import Verif.Proof.ShortMain

/-!
# Exponent parts of any size (C62)
-/

namespace Floaxie
open Spec FloatType

theorem toInt32_wrap (v : Nat) : toInt32 v = wrap32 v := by
  unfold toInt32 wrap32
  dsimp only
  split_ifs <;> omega

theorem wrap32_range (z : Int) : -(2 ^ 31) ≤ wrap32 z ∧ wrap32 z < 2 ^ 31 := by
  unfold wrap32; omega

theorem cut9_small {E : Nat} (h : E < 10 ^ 9) : cut9 E = E := by
  unfold cut9
  have : Nat.log 10 E - 8 = 0 := by
    by_cases h0 : E = 0
    · subst h0; simp
    · have := Nat.log_lt_of_lt_pow h0 h
      omega
  rw [this]; simp

/-- What the exponent reader accumulates is the number cut to nine digits. -/
theorem reads_cut9 {x : Numeral} {P : Nat} {K : Int} {frac : Nat} (h : Reads 9 x P K frac) (hK : 0 ≤ K ∧ K ≤ 3) :
    P * 10 ^ K.toNat = cut9 (digitsVal x.int) := by
  rcases h with ⟨h1, rfl, rfl, -⟩ | ⟨z, ds, tail, h1, ⟨d, ds', h2, h2'⟩, h3, rfl, h5, h6⟩
  · have : digitsVal x.int = 0 := digitsVal_all_zero (fun d hd => h1 d (by simp [allDigits, hd]))
    rw [this]; rfl
  · obtain ⟨k, rfl⟩ : ∃ k : Nat, K = k := ⟨K.toNat, by omega⟩
    have htl : tail.length = k + x.fracDigits.length := by omega
    have hint : x.int = List.replicate z 0 ++ (ds ++ tail.take k) := by
      have e : x.int ++ x.fracDigits = (List.replicate z 0 ++ (ds ++ tail.take k)) ++ tail.drop k := by
        rw [show x.int ++ x.fracDigits = allDigits x from rfl, h1]; simp
      exact (List.append_inj' e (by simp; omega)).1
    have hE : digitsVal x.int = digitsVal ds * 10 ^ k + digitsVal (tail.take k) := by
      rw [hint, digitsVal_append, digitsVal_replicate_zero, digitsVal_append, List.length_take, min_eq_left (by omega)]
      simp
    have ht : digitsVal (tail.take k) < 10 ^ k := by
      have := digitsVal_lt (tail.take k)
      rwa [List.length_take, min_eq_left (by omega)] at this
    rw [Int.toNat_natCast, hE]
    have hd1 : digitsVal ds < 10 ^ ds.length := digitsVal_lt ds
    have hne : ds ≠ [] := by rw [h2]; simp
    have hl : 0 < ds.length := List.length_pos_iff.mpr hne
    have hd2 : 10 ^ (ds.length - 1) ≤ digitsVal ds := digitsVal_ge hne (by subst h2; exact h2')
    have hlog : Nat.log 10 (digitsVal ds * 10 ^ k + digitsVal (tail.take k)) = ds.length - 1 + k := by
      apply (Nat.log_eq_iff (Or.inr ⟨by norm_num, by have h1 : 0 < 10 ^ (ds.length - 1) := by positivity
                                                     have h2 : 0 < digitsVal ds := by omega
                                                     have : 0 < digitsVal ds * 10 ^ k := by positivity
                                                     omega⟩)).mpr
      constructor
      · rw [pow_add]
        have := Nat.mul_le_mul_right (10 ^ k) hd2
        omega
      · rw [show ds.length - 1 + k + 1 = ds.length + k by omega, pow_add]
        have := Nat.mul_le_mul_right (10 ^ k) (show digitsVal ds + 1 ≤ 10 ^ ds.length from hd1)
        rw [Nat.add_mul, Nat.one_mul] at this
        omega
    unfold cut9
    rw [hlog]
    rcases h6 with ⟨a1, -, -⟩ | ⟨a1, -, -⟩
    · have : digitsVal (tail.take k) = 0 := digitsVal_all_zero (fun d hd => a1 d (List.mem_of_mem_take hd))
      rw [this, Nat.add_zero, Nat.div_mul_cancel]
      exact (pow_dvd_pow 10 (by omega)).trans (Nat.dvd_mul_left _ _)
    · rw [a1, show 9 - 1 + k - 8 = k by omega, Nat.mul_comm (digitsVal ds) (10 ^ k), Nat.mul_add_div (by positivity),
        Nat.div_eq_of_lt ht, Nat.add_zero, Nat.mul_comm]

/-- What an exponent part comes to: undefined (as negating `-2^31` is, and adding
it to the place of the last digit beyond the range of `int` is) or a reading with
the exponent `expMeaning`. -/
theorem krosh_bigExp {T : FloatType} {mem : List Nat} {str : Nat} {n x : Numeral} (hm : Nul mem str)
    (hx : WithExponent mem str n x) (hf : ¬ ExpFault x.int x.fracDigits) :
    ∃ (w : DiyFp) (P : Nat) (K0 : Int) (frac : Nat), 2 ^ (T.W - 1) ≤ w.f ∧ w.f < 2 ^ T.W ∧
      ReadsExact T.digits10 n P K0 frac ∧ P ≠ 0 ∧ adjustMantissa T P frac = .ok w ∧ -2050 ≤ K0 ∧ K0 ≤ 2050 ∧
      krosh T mem str =
        if expMeaning x = 2 ^ 31 ∨ ¬ (-(2 ^ 31) ≤ K0 + expMeaning x ∧ K0 + expMeaning x < 2 ^ 31) then .error .signedOverflow
        else kroshTail T w (K0 + expMeaning x) (!n.isNeg)
          (str + (signText n.sign ++ n.mantText).length + 1 + min (signText x.sign ++ x.mantText).length 2049) := by
  obtain ⟨c, R, dp, frac, g1, g2, g3, g4, g5, g6, g7⟩ := withExponent_digits hx hm
  have hk : 0 ≤ dp.K ∧ dp.K ≤ 3 := by
    by_contra hc; exact hf ((expFault_iff g4).mp hc)
  have hcut := reads_cut9 g4 hk
  have h0 : digitsVal (allDigits n) ≠ 0 := hx.nonzero
  have hl : (scanText n).length ≤ 2049 := hx.len
  obtain ⟨P, K, frac, w, h1, h1', h2, h3, h4⟩ := parseMantissa_num (T := T) g1 (ender_exp g2) hl
  have hP : P ≠ 0 := by
    intro hz
    rw [h1.zero_iff] at hz
    unfold mantVal at hz
    rcases mul_eq_zero.mp hz with hz | hz
    · exact h0 (by exact_mod_cast hz)
    · exact absurd hz (zpow_ne_zero _ (by norm_num))
  obtain ⟨w', Y, w1, w2, w3, -⟩ := mantissa_ok h1 hP
  have hww : w = w' := by
    have := h2 hP
    rw [w1] at this
    exact (Except.ok.inj this).symm
  subst hww
  have hf0 : w.f ≠ 0 := by
    have : 0 < 2 ^ (T.W - 1) := by positivity
    omega
  have hg : mem[str + (scanText n).length]? = some c := by
    apply get_of_drop (r := R)
    rw [← List.drop_drop, g1, List.drop_left]
  have hKb := h1.K_bound hP hl
  have hpe := parseExponent_digits hg g2 g3 g5
  rw [if_pos hk, hcut, toInt32_wrap, g6] at hpe
  refine ⟨w, P, K, frac, w2, w3, h1', hP, w1, by omega, by omega, ?_⟩
  have hend : dp.strEnd = str + (signText n.sign ++ n.mantText).length + 1 + min (signText x.sign ++ x.mantText).length 2049 := g7
  rw [← hend]
  have hwr := wrap32_range (cut9 (digitsVal x.int))
  -- the exponent, if it can be computed
  have fin : ∀ v : Int, v < 2 ^ 31 → parseExponent mem (str + (scanText n).length) = .ok { value := v, strEnd := dp.strEnd } →
      krosh T mem str = if v = 2 ^ 31 ∨ ¬ (-(2 ^ 31) ≤ K + v ∧ K + v < 2 ^ 31) then .error .signedOverflow
        else kroshTail T w (K + v) (!n.isNeg) dp.strEnd := by
    intro v hv he
    by_cases hb : -(2 ^ 31) ≤ K + v ∧ K + v < 2 ^ 31
    · rw [if_neg (by omega), krosh_eq_tail h4 rfl hf0 he hb]
    · rw [if_pos (Or.inr hb)]
      unfold krosh
      rw [h4, ok_bind, if_pos ⟨rfl, hf0⟩]
      dsimp only
      rw [he, ok_bind]
      dsimp only
      unfold chkInt
      rw [if_neg hb]; rfl
  unfold expMeaning
  generalize wrap32 (cut9 (digitsVal x.int)) = wv at hpe hwr ⊢
  cases hn : x.isNeg with
  | false =>
    rw [hn] at hpe
    simp only [Bool.not_false, Bool.not_true, Bool.false_eq_true, if_false] at hpe ⊢
    exact fin _ hwr.2 hpe
  | true =>
    rw [hn] at hpe
    simp only [Bool.not_true, Bool.not_false, if_true] at hpe
    dsimp only
    simp only [if_true]
    unfold chkInt at hpe
    by_cases hb : -(2 ^ 31) ≤ -wv ∧ -wv < 2 ^ 31
    · rw [if_pos hb] at hpe
      exact fin _ hb.2 hpe
    · rw [if_neg hb] at hpe
      rw [if_pos (Or.inl (by omega))]
      unfold krosh
      rw [h4, ok_bind, if_pos ⟨rfl, hf0⟩]
      dsimp only
      rw [hpe]; rfl

theorem readsExact_place0 {κ : Nat} {n : Numeral} {P : Nat} {K : Int} {frac : Nat} (h : ReadsExact κ n P K frac) (hP : P ≠ 0) :
    LastPlace κ ({ n with exp := none } : Numeral).absValue K := by
  have := readsExact_place (n := ({ n with exp := none } : Numeral)) (show ReadsExact κ ({ n with exp := none } : Numeral) P K frac from h) hP
  rwa [show ({ n with exp := none } : Numeral).expValue = 0 from rfl, Int.add_zero] at this

/-- **C62.** What `atof` makes of a non-zero number followed by an exponent part
of any size (that does not run into the table of C31): with `10^K0` the place of
the last digit of the number that is kept, it is undefined (signed overflow) if
and only if `expMeaning` is `2^31` or `K0 + expMeaning` is not an `int`;
otherwise the number is read as if `expMeaning` were the exponent written: zero or
infinity if that is beyond the table, else what a numeral with that exponent gives. -/
theorem C62_any_exponent (T : FloatType) (fb : Fallback) (errno : Nat) (mem : List Nat) (str : Nat) (n x : Numeral)
    (hm : Nul mem str) (hx : WithExponent mem str n x) (hf : ¬ ExpFault x.int x.fracDigits) (K0 : Int)
    (hK : LastPlace T.digits10 ({ n with exp := none } : Numeral).absValue K0) :
    (atof T fb errno mem str = .error .signedOverflow ↔
      expMeaning x = 2 ^ 31 ∨ ¬ (-(2 ^ 31) ≤ K0 + expMeaning x ∧ K0 + expMeaning x < 2 ^ 31)) ∧
    (atof T fb errno mem str ≠ .error .signedOverflow → ∃ r, atof T fb errno mem str = .ok r ∧
      (r.fellBack = false → r.strEnd = str + (signText n.sign ++ n.mantText).length + 1 + min (signText x.sign ++ x.mantText).length 2049) ∧
      (K0 + expMeaning x < T.powLo → r.value = 0 ∧ r.status = .underflow ∧ r.fellBack = false) ∧
      (T.powHi < K0 + expMeaning x → r.value = posInf T ∧ r.status = .overflow ∧ r.fellBack = false) ∧
      ∀ mem' str' e, e.value = expMeaning x → NumeralAt mem' str' { n with exp := some e } →
        ∃ r', atof T fb errno mem' str' = .ok r' ∧ r'.fellBack = r.fellBack ∧
          (r.fellBack = false → r'.value = r.value ∧ r'.status = r.status)) := by
  obtain ⟨w, P, K0', frac, w1, w2, r1, r2, r3, b1, b2, hkr⟩ := krosh_bigExp (T := T) hm hx hf
  have hKK : K0' = K0 := lastPlace_unique (by cases T <;> decide) (readsExact_place0 r1 r2) hK
  subst hKK
  have htot := kroshTail_total w1 w2 (K0' + expMeaning x)
  constructor
  · rw [atof_error, hkr]
    constructor
    · intro h
      by_contra hc
      rw [if_neg hc] at h
      rcases htot with ⟨-, t⟩ | ⟨-, v, st, acc, -, t⟩ <;> · rw [t] at h; cases h
    · intro h; rw [if_pos h]
  · intro hne
    have hc : ¬ (expMeaning x = 2 ^ 31 ∨ ¬ (-(2 ^ 31) ≤ K0' + expMeaning x ∧ K0' + expMeaning x < 2 ^ 31)) := by
      intro hc
      apply hne
      rw [atof_error, hkr, if_pos hc]
    rw [if_neg hc] at hkr
    have hp : T.powLo < 0 ∧ 0 < T.powHi := by cases T <;> decide
    have hplain : ∀ mem' str' e, e.value = expMeaning x → NumeralAt mem' str' { n with exp := some e } →
        ∃ L, L ≠ str' ∧ krosh T mem' str' = kroshTail T w (K0' + expMeaning x) (!n.isNeg) L := by
      intro mem' str' e he h'
      obtain ⟨c', R', hm', he', hd'⟩ := h'.scan
      obtain ⟨P', K', frac', w', q1, q2, q3, q4, q5⟩ := parseMantissa_num (T := T) hm' he' h'.mantLen
      obtain ⟨e1, e2, e3⟩ := readsExact_unique (n := n) (n' := n) r1 (show ReadsExact T.digits10 n P' K' frac' from q2) ⟨rfl, rfl, rfl⟩
      subst e1 e2 e3
      have hw : w' = w := by
        have := q3 r2
        rw [r3] at this
        exact (Except.ok.inj this).symm
      subst hw
      have hf0 : w'.f ≠ 0 := by
        have : 0 < 2 ^ (T.W - 1) := by positivity
        omega
      have hEb := h'.exp_bound
      have hkr' := krosh_eq_tail q5 rfl hf0 h'.exponent (by dsimp only; omega)
      dsimp only at hkr'
      have hv : ({ n with exp := some e } : Numeral).expValue = expMeaning x := he
      rw [hv] at hkr'
      refine ⟨_, ?_, hkr'⟩
      have := text_pos h'.valid
      omega
    have hs1 : str + (signText n.sign ++ n.mantText).length + 1 + min (signText x.sign ++ x.mantText).length 2049 ≠ str := by omega
    rcases htot with ⟨t0, t⟩ | ⟨t0, v, st, acc, tacc, t⟩
    · rw [t] at hkr
      refine ⟨_, atof_of_krosh hkr hs1, fun _ => rfl, ?_, ?_, ?_⟩
      · intro hlt; exact ⟨if_pos hlt, if_pos hlt, rfl⟩
      · intro hlt; exact ⟨if_neg (by omega), if_neg (by omega), rfl⟩
      · intro mem' str' e he h'
        obtain ⟨L, hL, h3⟩ := hplain mem' str' e he h'
        rw [t] at h3
        exact ⟨_, atof_of_krosh h3 hL, rfl, fun _ => ⟨rfl, rfl⟩⟩
    · rw [t] at hkr
      refine ⟨_, atof_of_krosh hkr hs1, ?_, ?_, ?_, ?_⟩
      · cases acc with
        | false => intro h; cases h
        | true => intro _; rfl
      · intro hlt; omega
      · intro hlt; omega
      · intro mem' str' e he h'
        obtain ⟨L, hL, h3⟩ := hplain mem' str' e he h'
        rw [t] at h3
        refine ⟨_, atof_of_krosh h3 hL, ?_⟩
        cases acc with
        | false => exact ⟨rfl, fun h => by cases h⟩
        | true => exact ⟨rfl, fun _ => ⟨rfl, rfl⟩⟩

/-- **C31, exactly when there is signed overflow.** -/
theorem C31_signedOverflow_iff (T : FloatType) (fb : Fallback) (errno : Nat) (mem : List Nat) (str : Nat) (hm : Nul mem str) :
    atof T fb errno mem str = .error .signedOverflow ↔
      ∃ n x K0, WithExponent mem str n x ∧ ¬ ExpFault x.int x.fracDigits ∧
        LastPlace T.digits10 ({ n with exp := none } : Numeral).absValue K0 ∧
        (expMeaning x = 2 ^ 31 ∨ ¬ (-(2 ^ 31) ≤ K0 + expMeaning x ∧ K0 + expMeaning x < 2 ^ 31)) := by
  constructor
  · intro h
    obtain ⟨n, x, hx, ⟨h1, -⟩ | ⟨-, -, hf⟩⟩ := error_withExponent (T := T) hm (atof_error.mp h)
    · cases h1
    obtain ⟨w, P, K0, frac, w1, w2, r1, r2, r3, -⟩ := krosh_bigExp (T := T) hm hx hf
    have hK := readsExact_place0 r1 r2
    exact ⟨n, x, K0, hx, hf, hK, (C62_any_exponent T fb errno mem str n x hm hx hf K0 hK).1.mp h⟩
  · rintro ⟨n, x, K0, hx, hf, hK, h⟩
    exact (C62_any_exponent T fb errno mem str n x hm hx hf K0 hK).1.mpr h

/-- Below `10^9` the exponent is taken as it is written. -/
theorem expMeaning_small {x : Numeral} (h : digitsVal x.int < 10 ^ 9) :
    expMeaning x = if x.isNeg then -(digitsVal x.int : Int) else digitsVal x.int := by
  unfold expMeaning
  rw [cut9_small h]
  have : wrap32 (digitsVal x.int) = digitsVal x.int := by unfold wrap32; omega
  rw [this]

/-- **C62, up to `10^9`.** With an exponent from `10^4` to `10^9` that does not run
into the table of C31 the result is (plus) infinity with status overflow or (plus)
zero with status underflow, according to the sign of the exponent, all digits of
the exponent are consumed (up to the limit of 2 KB), and the fallback is not asked. -/
theorem C62_large_exponent (T : FloatType) (fb : Fallback) (errno : Nat) (mem : List Nat) (str : Nat) (n x : Numeral)
    (hm : Nul mem str) (hx : WithExponent mem str n x) (hf : ¬ ExpFault x.int x.fracDigits)
    (h1 : 10 ^ 4 ≤ digitsVal x.int) (h2 : digitsVal x.int < 10 ^ 9) :
    atof T fb errno mem str = .ok ⟨if x.isNeg then 0 else posInf T, if x.isNeg then .underflow else .overflow,
      str + (signText n.sign ++ n.mantText).length + 1 + min (signText x.sign ++ x.mantText).length 2049, errno, false⟩ := by
  obtain ⟨w, P, K0, frac, w1, w2, r1, r2, r3, b1, b2, hkr⟩ := krosh_bigExp (T := T) hm hx hf
  have hE := expMeaning_small h2
  have hp : -1000 < T.powLo ∧ T.powLo < 0 ∧ 0 < T.powHi ∧ T.powHi < 1000 := by cases T <;> decide
  have hs1 : str + (signText n.sign ++ n.mantText).length + 1 + min (signText x.sign ++ x.mantText).length 2049 ≠ str := by omega
  cases hn : x.isNeg with
  | true =>
    rw [hn] at hE
    simp only [if_true] at hE ⊢
    rw [hE, if_neg (by omega)] at hkr
    rcases kroshTail_total w1 w2 (K0 + -(digitsVal x.int : Int)) with ⟨t0, t⟩ | ⟨t0, -⟩
    · rw [t, if_pos (by omega), if_pos (by omega)] at hkr
      exact atof_of_krosh hkr hs1
    · omega
  | false =>
    rw [hn] at hE
    simp only [Bool.false_eq_true, if_false] at hE ⊢
    rw [hE, if_neg (by omega)] at hkr
    rcases kroshTail_total w1 w2 (K0 + (digitsVal x.int : Int)) with ⟨t0, t⟩ | ⟨t0, -⟩
    · rw [t, if_neg (by omega), if_neg (by omega)] at hkr
      exact atof_of_krosh hkr hs1
    · omega

/-- **C62, from `10^9` on**, the ideal claim is refuted: exponents wrap around and
digits are dropped.  "1e4294967301" is read as `10^4` and "1e-4294967301" as
`10^-4`, both with status success; "1e2147483650" underflows to zero and
"1e-2147483650" overflows to infinity. -/
theorem C62_refuted (fb : Fallback) (errno : Nat) :
    atof .double fb errno (chars "1e4294967301" ++ [0]) 0 = .ok ⟨0x40C3880000000000, .success, 12, errno, false⟩ ∧
    atof .double fb errno (chars "1e-4294967301" ++ [0]) 0 = .ok ⟨0x3F1A36E2EB1C432D, .success, 13, errno, false⟩ ∧
    atof .float fb errno (chars "1e4294967301" ++ [0]) 0 = .ok ⟨0x461C4000, .success, 12, errno, false⟩ ∧
    atof .double fb errno (chars "1e2147483650" ++ [0]) 0 = .ok ⟨0, .underflow, 12, errno, false⟩ ∧
    atof .double fb errno (chars "1e-2147483650" ++ [0]) 0 = .ok ⟨0x7FF0000000000000, .overflow, 13, errno, false⟩ := by
  have h1 : krosh .double (chars "1e4294967301" ++ [0]) 0 = .ok ⟨0x40C3880000000000, 12, .success, true⟩ := by decide +kernel
  have h2 : krosh .double (chars "1e-4294967301" ++ [0]) 0 = .ok ⟨0x3F1A36E2EB1C432D, 13, .success, true⟩ := by decide +kernel
  have h3 : krosh .float (chars "1e4294967301" ++ [0]) 0 = .ok ⟨0x461C4000, 12, .success, true⟩ := by decide +kernel
  have h4 : krosh .double (chars "1e2147483650" ++ [0]) 0 = .ok ⟨0, 12, .underflow, true⟩ := by decide +kernel
  have h5 : krosh .double (chars "1e-2147483650" ++ [0]) 0 = .ok ⟨0x7FF0000000000000, 13, .overflow, true⟩ := by decide +kernel
  exact ⟨atof_of_krosh h1 (by decide), atof_of_krosh h2 (by decide), atof_of_krosh h3 (by decide), atof_of_krosh h4 (by decide),
    atof_of_krosh h5 (by decide)⟩

/-- The hypotheses can be met: "1e4294967301" means "1e4". -/
theorem wrapped_at : WithExponent (chars "1e4294967301" ++ [0]) 0 ⟨none, [1], none, none⟩ ⟨none, [4,2,9,4,9,6,7,3,0,1], none, none⟩ :=
  ⟨⟨'e'.toNat, [0], Or.inl rfl, by decide, Or.inl ⟨by decide, 0, [], rfl, by decide, by decide⟩⟩, by decide, by decide, by decide⟩

example : expMeaning ⟨none, [4,2,9,4,9,6,7,3,0,1], none, none⟩ = 4 := by decide +kernel
example : expMeaning ⟨some true, [2,1,4,7,4,8,3,6,5,0], none, none⟩ = 2147483646 := by decide +kernel

example (fb : Fallback) : ∃ r r', atof .double fb 0 (chars "1e4294967301" ++ [0]) 0 = .ok r ∧
    atof .double fb 0 (chars "1e4" ++ [0]) 0 = .ok r' ∧ (r.fellBack = false → r'.value = r.value ∧ r'.status = r.status) := by
  have hk : LastPlace 19 ({ (⟨none, [1], none, none⟩ : Numeral) with exp := none } : Numeral).absValue 0 :=
    ⟨1, by decide, by decide, Or.inl ⟨by decide +kernel, by decide⟩⟩
  obtain ⟨h1, h2⟩ := C62_any_exponent .double fb 0 (chars "1e4294967301" ++ [0]) 0 _ _ ⟨12, by decide, by decide⟩ wrapped_at
    (by unfold ExpFault; decide) 0 hk
  have he : expMeaning ⟨none, [4,2,9,4,9,6,7,3,0,1], none, none⟩ = 4 := by decide +kernel
  obtain ⟨r, r1, -, -, -, r5⟩ := h2 (by rw [ne_eq, h1, he]; norm_num)
  obtain ⟨r', q1, -, q2⟩ := r5 (chars "1e4" ++ [0]) 0 ⟨false, none, [4]⟩ (by rw [he]; decide)
    (numeralAt_cstr (n := ⟨none, [1], none, some ⟨false, none, [4]⟩⟩) ⟨by decide, by decide⟩ (by decide)
      (by intro e he; cases he; exact ⟨by decide, by decide, by decide⟩))
  exact ⟨r, r', r1, q1, q2⟩

/-- "2.5e-123456". -/
example (fb : Fallback) (T : FloatType) : atof T fb 0 (chars "2.5e-123456" ++ [0]) 0 = .ok ⟨0, .underflow, 11, 0, false⟩ :=
  C62_large_exponent T fb 0 (chars "2.5e-123456" ++ [0]) 0 ⟨none, [2], some [5], none⟩ ⟨some true, [1,2,3,4,5,6], none, none⟩
    ⟨11, by decide, by decide⟩
    ⟨⟨'e'.toNat, [0], Or.inl rfl, by decide, Or.inl ⟨by decide, 0, [], rfl, by decide, by decide⟩⟩, by decide, by decide, by decide⟩
    (by unfold ExpFault; decide) (by decide) (by decide)

end Floaxie
