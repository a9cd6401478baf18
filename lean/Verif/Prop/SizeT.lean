import Verif.Proof.SizeT
import Verif.Prop.Eval
import Verif.Prop.Format

/-!
# C83: the width of `std::size_t`

The other theorems are about a `std::size_t` of 64 bits (and leave the reduction out of
sums that cannot reach `2^64`).  `Model/SizeT.lean` has the same functions with `sz` bits and
with every sum and difference reduced.  The calls have the same outcome for every
`sz ≥ 32`, as long as no object is longer than half the address space, which is what
`PTRDIFF_MAX` and `std::string::max_size` guarantee; with 16 bits they would not.
-/

namespace Floaxie

open Spec FloatType

theorem atof_width {sz : Nat} (L : Locale) {T : FloatType} {str : Nat} {mem : List Nat} (hsz : 32 ≤ sz)
    (hmem : mem.length < 2 ^ (sz - 1)) (fb : Fallback) (errno : Nat) :
    @atofW L sz T fb errno mem str = @atof L T fb errno mem str := by
  unfold atofW atof
  rw [krosh_width hsz hmem]

/-- **C83, reading.** Every call of `atof` - any locale, fallback, value of `errno`, memory
and position in it, also one that reads outside of it - has the same outcome with a
`std::size_t` of any width from 32 bits on. -/
theorem C83_atof (L : Locale) (T : FloatType) (fb : Fallback) (errno sz : Nat) (hsz : 32 ≤ sz) (mem : List Nat)
    (hmem : mem.length < 2 ^ (sz - 1)) (str : Nat) :
    @atofW L sz T fb errno mem str = @atof L T fb errno mem str :=
  atof_width L hsz hmem fb errno

/-- **C83, reading a string.** -/
theorem C83_from_string (L : Locale) (T : FloatType) (fb : Fallback) (errno sz : Nat) (hsz : 32 ≤ sz) (s : List Nat)
    (hs : s.length + 1 < 2 ^ (sz - 1)) :
    @fromStringW L sz T fb errno s = @fromString L T fb errno s := by
  unfold fromStringW fromString
  exact atof_width L hsz (by simpa using hs) fb errno

theorem printScientificW_same {sz : Nat} (hsz : 32 ≤ sz) {len : Nat} {d : Int} (hl : len ≤ 17) (hd : d.natAbs ≤ 400)
    (buf : List Nat) (o : Nat) :
    printScientificW sz buf o len d = (printScientific buf o len d >>= fun r => pure (r.1, r.2 % 2 ^ sz)) := by
  have h32 := two_pow_sz hsz
  unfold printScientificW printScientific
  rw [chkInt_ok (by omega) (by omega), ok_bind, chkInt_ok (by split_ifs <;> omega) (by split_ifs <;> omega)]
  have ha : (if d - 1 < 0 then -(d - 1) else d - 1).toNat = (d - 1).natAbs := by split_ifs <;> omega
  have h1 : len > 1 → subW 32 len 1 = len - 1 := fun h => subW_eq (by omega) (by omega)
  simp only [ok_bind, ha]
  have hif : (if len > 1 then do
      let buf ← memmove buf (o + 2) (o + 1) (subW 32 len 1)
      let buf ← wr buf (o + 1) '.'.toNat
      pure (buf, o + len)
    else pure (buf, o) : M (List Nat × Nat)) = (if len > 1 then do
      let buf ← memmove buf (o + 2) (o + 1) (len - 1)
      let buf ← wr buf (o + 1) '.'.toNat
      pure (buf, o + len)
    else pure (buf, o) : M (List Nat × Nat)) := by
    by_cases h : len > 1
    · rw [if_pos h, if_pos h, h1 h]
    · rw [if_neg h, if_neg h]
  rw [hif]
  simp only [bind_assoc, pure_bind]
  congr 1
  funext r
  obtain ⟨b, o'⟩ := r
  dsimp only
  congr 1
  funext b
  congr 1
  funext b
  congr 1
  funext r
  obtain ⟨b, n⟩ := r
  dsimp only
  have e : addW 32 (addW 32 (addW 32 len (if len > 1 then 1 else 0)) 1) (if d - 1 < 0 then 1 else 0) =
      len + (if len > 1 then 1 else 0) + 1 + (if d - 1 < 0 then 1 else 0) := by
    have c1 : (if len > 1 then 1 else 0) ≤ 1 := by split_ifs <;> omega
    have c2 : (if d - 1 < 0 then 1 else 0) ≤ 1 := by split_ifs <;> omega
    rw [addW_eq (a := len) (by omega), addW_eq (b := 1) (by omega), addW_eq (by omega)]
  rw [e]
  rfl

theorem printDecimalW_same {len : Nat} {k : Int} (hl : len ≤ 17) (hk : k.natAbs ≤ 343) (buf : List Nat) (o : Nat) :
    printDecimalW buf o len k = printDecimal buf o len k := by
  unfold printDecimalW printDecimal
  rw [toInt32_smallW (by omega), chkInt_ok (by omega) (by omega)]
  simp only [ok_bind]
  generalize hdp : (len : Int) + k = d
  have hsrc : positivePart d < 2 ^ 31 := by unfold positivePart; omega
  rw [toInt32_smallW hsrc, chkInt_ok (x := (len : Int) - (positivePart d : Nat)) (by omega) (by omega)]
  have hoff : (if d > 0 then pure 0 else chkInt (2 - d) : M Int) = .ok (if d > 0 then 0 else 2 - d) := by
    by_cases h : d > 0
    · rw [if_pos h, if_pos h]; rfl
    · rw [if_neg h, if_neg h, chkInt_ok (by omega) (by omega)]
  rw [hoff]
  simp only [ok_bind]
  have hlo : intW 32 (if d > 0 then 0 else 2 - d) = (if d > 0 then 0 else (2 - d).toNat) := by
    have : ((intW 32 (if d > 0 then 0 else 2 - d) : Nat) : Int) = (if d > 0 then 0 else 2 - d) := by
      rw [intW_cast]
      exact Int.emod_eq_of_lt (by split_ifs <;> omega) (by split_ifs <;> omega)
    split_ifs at this ⊢ <;> omega
  rw [hlo]
  have hdest : (if d > 0 then addW 32 (positivePart d) (if k < 0 then 1 else 0) else (if d > 0 then 0 else (2 - d).toNat)) =
      (if d > 0 then positivePart d + (if k < 0 then 1 else 0) else (if d > 0 then 0 else (2 - d).toNat)) := by
    have c1 : (if k < 0 then 1 else 0) ≤ 1 := by split_ifs <;> omega
    rw [addW_eq (by omega)]
  rw [hdest]
  have hle : positivePart d ≤ (if d > 0 then positivePart d + (if k < 0 then 1 else 0) else (if d > 0 then 0 else (2 - d).toNat)) := by
    unfold positivePart
    split_ifs <;> omega
  have hlt : (if d > 0 then positivePart d + (if k < 0 then 1 else 0) else (if d > 0 then 0 else (2 - d).toNat)) < 1000 := by
    unfold positivePart
    split_ifs <;> omega
  have hrk : positivePart k ≤ 343 := by unfold positivePart; omega
  generalize (if d > 0 then positivePart d + (if k < 0 then 1 else 0) else (if d > 0 then 0 else (2 - d).toNat)) = dest at *
  rw [subW_eq (a := dest) hle (by omega), addW_eq (a := len) (by omega), addW_eq (by omega)]

theorem prettify_same {sz : Nat} (hsz : 32 ≤ sz) {len : Nat} {k : Int} (hl : len ≤ 17) (hk : k.natAbs ≤ 343)
    (thr : Nat) (buf : List Nat) (o : Nat) :
    (∀ e, prettify thr buf o len k = .error e → prettifyW sz thr buf o len k = .error e) ∧
    ∀ b n, prettify thr buf o len k = .ok (b, n) → n < 2 ^ sz → prettifyW sz thr buf o len k = .ok (b, n) := by
  have key : ∀ z : Nat, 32 ≤ z → ((max ((len : Int) + k) (-k)) % 2 ^ z).toNat = (max ((len : Int) + k) (-k)).toNat := by
    intro z hz
    have h32 : ((2 ^ 32 : ℕ) : ℤ) ≤ ((2 ^ z : ℕ) : ℤ) := by exact_mod_cast two_pow_sz hz
    push_cast at h32
    rw [Int.emod_eq_of_lt (by omega) (by omega)]
  unfold prettifyW prettify
  rw [toInt32_smallW (by omega), chkInt_ok (x := (len : Int) + k) (by omega) (by omega),
    chkInt_ok (x := -k) (by omega) (by omega)]
  simp only [ok_bind]
  unfold intW
  rw [key sz hsz, key 64 (by norm_num)]
  cases chooseFormat thr (max ((len : Int) + k) (-k)).toNat with
  | decimal =>
    dsimp only
    rw [printDecimalW_same hl hk buf o]
    exact ⟨fun e h => h, fun b n h _ => h⟩
  | scientific =>
    dsimp only
    rw [printScientificW_same hsz hl (by omega) buf o]
    refine ⟨fun e h => by rw [h]; rfl, fun b n h hn => ?_⟩
    rw [h, ok_bind]
    dsimp only
    rw [Nat.mod_eq_of_lt hn]
    rfl

theorem ftoa_length_lt (T : FloatType) (bits : Nat) (hb : bits < 2 ^ T.W) {buf b' : List Nat} {n : Nat}
    (h : ftoa T bits buf = .ok (b', n)) : n < maxBufferSize T := by
  obtain ⟨t, -, h2, h3⟩ := ftoa_total T bits hb
  have h1 := (frm_ftoa T bits buf b' n h).2 (List.replicate (maxBufferSize T) 1)
  dsimp only at h1
  rw [h3 _ (by simp; omega)] at h1
  simp only [Except.ok.injEq, Prod.mk.injEq] at h1
  omega

theorem genIntLoopW_same (o : Nat) : ∀ (kappa div p1 : Nat) (buf : List Nat) (len : Nat), len + kappa ≤ 1000 →
    genIntLoopW o kappa div p1 buf len = genIntLoop o kappa div p1 buf len ∧
    ∀ b l k, genIntLoop o kappa div p1 buf len = .ok (b, l, k) → l ≤ len + kappa ∧ k ≤ kappa := by
  intro kappa
  induction kappa with
  | zero =>
    intro div p1 buf len _
    refine ⟨rfl, fun b l k h => ?_⟩
    unfold genIntLoop at h
    cases h
    omega
  | succ kappa ih =>
    intro div p1 buf len hl
    unfold genIntLoopW genIntLoop
    by_cases hp : p1 ≠ 0
    · rw [if_pos hp, if_pos hp]
      by_cases hd : div = 0
      · rw [if_pos hd, if_pos hd]
        exact ⟨rfl, fun b l k h => by cases h⟩
      · rw [if_neg hd, if_neg hd, chkInt_ok (by omega) (by omega)]
        simp only [ok_bind]
        cases hw : wr buf (o + len) ('0'.toNat + p1 / div) with
        | error e =>
          rw [error_bind, error_bind]
          exact ⟨rfl, fun b l k h => by cases h⟩
        | ok b =>
          simp only [ok_bind]
          rw [show ((len : Int) + 1).toNat = len + 1 by omega]
          obtain ⟨h1, h2⟩ := ih (div / 10) (p1 % div) b (len + 1) (by omega)
          refine ⟨h1, fun b l k h => ?_⟩
          have := h2 b l k h
          omega
    · rw [if_neg hp, if_neg hp]
      refine ⟨rfl, fun b l k h => ?_⟩
      cases h
      omega

theorem genFracLoopW_same (T : FloatType) (o s oneF : Nat) (some : Bool) : ∀ (fuel p2 delta : Nat) (buf : List Nat) (len kappa : Nat),
    len + fuel ≤ 1000 → kappa < 256 →
    genFracLoopW T o s oneF some fuel p2 delta buf len kappa = genFracLoop T o s oneF some fuel p2 delta buf len kappa ∧
    ∀ b l k, genFracLoop T o s oneF some fuel p2 delta buf len kappa = .ok (b, l, k) → k < 256 := by
  intro fuel
  induction fuel with
  | zero =>
    intro p2 delta buf len kappa _ _
    exact ⟨rfl, fun b l k h => by cases h⟩
  | succ fuel ih =>
    intro p2 delta buf len kappa hl hk
    unfold genFracLoopW genFracLoop
    by_cases hp : p2 > delta
    · rw [if_pos hp, if_pos hp]
      dsimp only
      by_cases hs : (some || (p2 * 10 % 2 ^ T.W) >>> s % 256 != 0) = true
      · rw [if_pos hs, if_pos hs, chkInt_ok (by omega) (by omega)]
        simp only [ok_bind]
        cases hw : wr buf (o + len) ('0'.toNat + (p2 * 10 % 2 ^ T.W) >>> s % 256) with
        | error e =>
          rw [error_bind, error_bind]
          exact ⟨rfl, fun b l k h => by cases h⟩
        | ok b =>
          simp only [ok_bind, pure_bind]
          rw [show ((len : Int) + 1).toNat = len + 1 by omega]
          exact ih _ _ _ _ _ (by omega) (Nat.mod_lt _ (by norm_num))
      · rw [if_neg hs, if_neg hs]
        simp only [pure_bind]
        exact ih _ _ _ _ _ (by omega) (Nat.mod_lt _ (by norm_num))
    · rw [if_neg hp, if_neg hp]
      refine ⟨rfl, fun b l k h => ?_⟩
      cases h
      exact hk

theorem kappa_le (n : Nat) : (calculateKappaDiv n).1 ≤ 10 := by
  unfold calculateKappaDiv
  split_ifs <;> simp

theorem digitGenW_same {sz : Nat} (hsz : 32 ≤ sz) (T : FloatType) (Mp Mm : DiyFp) (he : -5000 ≤ Mp.e) (buf : List Nat) (o : Nat)
    (K : Int) (hK : K.natAbs ≤ 1000) :
    digitGenW sz T Mp Mm buf o K = digitGen T Mp Mm buf o K := by
  have hW : T.W ≤ 64 := by cases T <;> decide
  unfold digitGenW digitGen
  by_cases h0 : Mp.e ≤ 0
  swap
  · rw [show assertM (decide (Mp.e ≤ 0)) = .error .assertFail by rw [decide_eq_false h0]; rfl]
    rfl
  rw [chkInt_ok (by omega) (by omega)]
  have hi : intW sz (-Mp.e) = (-Mp.e).toNat := by
    have : ((2 ^ 32 : ℕ) : ℤ) ≤ ((2 ^ sz : ℕ) : ℤ) := by exact_mod_cast two_pow_sz hsz
    push_cast at this
    unfold intW
    rw [Int.emod_eq_of_lt (by omega) (by omega)]
  simp only [ok_bind, hi]
  congr 1
  funext _
  congr 1
  funext delta
  congr 1
  funext oneF
  congr 1
  funext _
  by_cases hp : Mp.f >>> (-Mp.e).toNat % 2 ^ 32 ≠ 0
  · rw [if_pos hp, if_pos hp]
    have hkd := kappa_le (Mp.f >>> (-Mp.e).toNat % 2 ^ 32)
    generalize calculateKappaDiv (Mp.f >>> (-Mp.e).toNat % 2 ^ 32) = kd at *
    obtain ⟨h1, h2⟩ := genIntLoopW_same o kd.1 kd.2 (Mp.f >>> (-Mp.e).toNat % 2 ^ 32) buf 0 (by omega)
    rw [h1]
    cases hq : genIntLoop o kd.1 kd.2 (Mp.f >>> (-Mp.e).toNat % 2 ^ 32) buf 0 with
    | error e => rw [error_bind, error_bind]
    | ok r =>
      obtain ⟨b, l, kap⟩ := r
      have hb := h2 b l kap hq
      simp only [ok_bind]
      by_cases hc : decide (Mp.f &&& oneF - 1 ≤ delta.f) = true
      · rw [if_pos hc, if_pos hc, chkInt_ok (by omega) (by omega)]
        rfl
      · rw [if_neg hc, if_neg hc, chkInt_ok (by omega) (by omega)]
        congr 1
        funext b2
        simp only [ok_bind]
        rw [show ((l : Int) + kap).toNat = l + kap by omega,
          show decide ((l : Int) + kap > 0) = decide (l + kap > 0) by rw [decide_eq_decide]; omega]
        obtain ⟨h3, h4⟩ := genFracLoopW_same T o (-Mp.e).toNat oneF (decide (l + kap > 0)) (T.W + 1) (Mp.f &&& oneF - 1) delta.f b2
          (l + kap) 0 (by omega) (by norm_num)
        rw [h3]
        cases hq2 : genFracLoop T o (-Mp.e).toNat oneF (decide (l + kap > 0)) (T.W + 1) (Mp.f &&& oneF - 1) delta.f b2 (l + kap) 0 with
        | error e => rw [error_bind, error_bind]
        | ok r =>
          obtain ⟨b3, l3, k3⟩ := r
          have := h4 _ _ _ hq2
          simp only [ok_bind]
          rw [chkInt_ok (by omega) (by omega)]
          rfl
  · rw [if_neg hp, if_neg hp]
    obtain ⟨h3, h4⟩ := genFracLoopW_same T o (-Mp.e).toNat oneF false (T.W + 1) (Mp.f &&& oneF - 1) delta.f buf
      0 0 (by omega) (by norm_num)
    rw [h3]
    cases hq2 : genFracLoop T o (-Mp.e).toNat oneF false (T.W + 1) (Mp.f &&& oneF - 1) delta.f buf 0 0 with
    | error e => rw [error_bind, error_bind]
    | ok r =>
      obtain ⟨b3, l3, k3⟩ := r
      have := h4 _ _ _ hq2
      simp only [ok_bind]
      rw [chkInt_ok (by omega) (by omega)]
      rfl

theorem inc_e (W : Nat) (w : DiyFp) : w.e ≤ (w.inc W).e ∧ (w.inc W).e ≤ w.e + 1 := by
  unfold DiyFp.inc
  split_ifs <;> dsimp only <;> omega

theorem dec_e (W : Nat) (w : DiyFp) : w.e - 1 ≤ (w.dec W).e ∧ (w.dec W).e ≤ w.e := by
  unfold DiyFp.dec
  split_ifs <;> dsimp only <;> omega

theorem grisu2_same {E : FpEval} (hE : Reasonable E) (T : FloatType) (bits : Nat) (hb : bits < 2 ^ T.W)
    (hfin : absPat T bits < posInf T) (h0 : absPat T bits ≠ 0) {sz : Nat} (hsz : 32 ≤ sz) (buf : List Nat) (o : Nat) :
    @grisu2W E sz T bits buf o = @grisu2 E T bits buf o := by
  obtain ⟨J, E', -, -, -, -, -, -, -, h1, h2, hbd⟩ := boundaries_ok T bits hb hfin h0
  unfold grisu2W grisu2 grisu2At kCompW
  rw [boundariesW_same, hbd, ok_bind, ok_bind]
  dsimp only
  rw [kComp_reasonable hE T E' h1 h2]
  obtain ⟨k1, k2, -, -⟩ := kComp_ok T E' h1 h2
  have hr : -1000 ≤ mkLo T ∧ mkHi T ≤ 1000 := by cases T <;> decide
  have ha : -100 ≤ T.alpha ∧ T.alpha ≤ 0 := by cases T <;> decide
  have hl : -2000 ≤ bndLo T ∧ bndHi T ≤ 2000 := by cases T <;> decide
  have hW : T.W ≤ 64 := by cases T <;> decide
  generalize kCompExp T.alpha E' = mk at *
  rw [chkInt_ok (x := T.alpha - E') (by omega) (by omega), ok_bind, chkInt_ok (x := T.alpha - E' - 1) (by omega) (by omega), ok_bind,
    chkInt_ok (x := E' + 1) (by omega) (by omega), ok_bind, chkInt_ok (x := mk) (by omega) (by omega), ok_bind,
    cachedPowerW_same hsz T (by omega)]
  cases hc : cachedPower T mk with
  | error e => rfl
  | ok c =>
    have hce := cachedPower_e hc
    simp only [ok_bind]
    rw [mulW_same hsz _ _ _ (by dsimp only; omega) (by dsimp only; omega),
      mulW_same hsz _ _ _ (by dsimp only; omega) (by dsimp only; omega),
      incW_same (by rw [mul_e]; dsimp only; omega) (by rw [mul_e]; dsimp only; omega), ok_bind,
      decW_same (by rw [mul_e]; dsimp only; omega) (by rw [mul_e]; dsimp only; omega), ok_bind,
      chkInt_ok (x := -mk) (by omega) (by omega), ok_bind]
    apply digitGenW_same hsz _ _ _ _ _ _ _ (by omega)
    refine le_trans ?_ (dec_e _ _).1
    rw [mul_e]
    dsimp only
    omega

theorem ftoa_same (T : FloatType) (bits : Nat) (hb : bits < 2 ^ T.W) {sz : Nat} (hsz : 32 ≤ sz) (buf : List Nat) :
    ftoaW sz T bits buf = ftoa T bits buf := by
  have hlt : ∀ b' n, ftoa T bits buf = .ok (b', n) → n < maxBufferSize T := fun b' n h => ftoa_length_lt T bits hb h
  have hmb : maxBufferSize T < 2 ^ sz := lt_of_lt_of_le (by cases T <;> decide) (two_pow_sz hsz)
  unfold ftoaW
  unfold ftoa at hlt ⊢
  by_cases hn : isNan T bits = true
  · rw [if_pos hn, if_pos hn]
  by_cases hi : isInf T bits = true
  · rw [if_neg hn, if_neg hn, if_pos hi, if_pos hi]
  by_cases hz : isZero T bits = true
  · rw [if_neg hn, if_neg hn, if_neg hi, if_neg hi, if_pos hz, if_pos hz]
  rw [if_neg hn, if_neg hi, if_neg hz] at hlt
  rw [if_neg hn, if_neg hn, if_neg hi, if_neg hi, if_neg hz, if_neg hz]
  have hfin : absPat T bits < posInf T := by
    unfold isNan at hn; unfold isInf at hi
    rw [absBits_eq, infBits_eq, decide_eq_true_eq] at hn hi
    omega
  have h0 : absPat T bits ≠ 0 := by
    unfold isZero at hz
    rwa [absBits_eq, decide_eq_true_eq] at hz
  obtain ⟨ds, k, hl, -, -, hk1, hk2, hg⟩ := grisu2_ok T bits hb hfin h0
  have hkr := pow_range T hk1 hk2
  have hms : ds.length ≤ 17 := by cases T <;> simp [maxSig] at hl <;> omega
  cases hw : wr buf 0 '-'.toNat with
  | error e => rfl
  | ok b =>
    rw [hw] at hlt
    simp only [ok_bind] at hlt ⊢
    generalize ho : (if isNegative T bits = true then 1 else 0) = o at *
    rw [grisu2_same C66_double_evaluation T bits hb hfin h0 hsz]
    cases hq : grisu2 T bits b o with
    | error e => rfl
    | ok r =>
      obtain ⟨b2, len, K⟩ := r
      rw [hq] at hlt
      simp only [ok_bind] at hlt ⊢
      have hlk : len = ds.length ∧ K = k := by
        have h1 := (frm_grisu2 T bits o b b2 (len, K) hq).2 (List.replicate (o + ds.length) 0)
        dsimp only at h1
        have h2 := hg o ((b ++ List.replicate (o + ds.length) 0).take o) ((b ++ List.replicate (o + ds.length) 0).drop o)
          (by simp; omega) (by simp; omega)
        rw [List.take_append_drop, h1] at h2
        simp only [Except.ok.injEq, Prod.mk.injEq] at h2
        exact h2.2
      obtain ⟨rfl, rfl⟩ := hlk
      obtain ⟨p1, p2⟩ := prettify_same hsz hms hkr decimalScientificThreshold b2 o
      cases hp : prettify decimalScientificThreshold b2 o ds.length K with
      | error e => rw [p1 e hp]; rfl
      | ok r =>
        obtain ⟨b3, n⟩ := r
        rw [hp] at hlt
        simp only [ok_bind] at hlt
        have := hlt _ _ rfl
        rw [p2 b3 n hp (by omega)]
        simp only [ok_bind]
        show Except.ok (b3, addW sz o n) = Except.ok (b3, o + n)
        rw [addW_eq (by omega)]

/-- **C83, printing.** Every call of `ftoa` - any value, any buffer, also one that is too
short - has the same outcome with a `std::size_t` of any width from 32 bits on. -/
theorem C83_ftoa (T : FloatType) (E : FpEval) (hE : Reasonable E) (bits : Nat) (hb : bits < 2 ^ T.W) (sz : Nat)
    (hsz : 32 ≤ sz) (buf : List Nat) :
    @ftoaW E sz T bits buf = @ftoa E T bits buf := by
  rw [(C66_same_text T E hE bits hb buf).1, ← ftoa_same T bits hb hsz buf]
  unfold ftoaW
  by_cases hn : isNan T bits = true
  · rw [if_pos hn, if_pos hn]
  by_cases hi : isInf T bits = true
  · rw [if_neg hn, if_neg hn, if_pos hi, if_pos hi]
  by_cases hz : isZero T bits = true
  · rw [if_neg hn, if_neg hn, if_neg hi, if_neg hi, if_pos hz, if_pos hz]
  rw [if_neg hn, if_neg hn, if_neg hi, if_neg hi, if_neg hz, if_neg hz]
  have hfin : absPat T bits < posInf T := by
    unfold isNan at hn; unfold isInf at hi
    rw [absBits_eq, infBits_eq, decide_eq_true_eq] at hn hi
    omega
  have h0 : absPat T bits ≠ 0 := by
    unfold isZero at hz
    rwa [absBits_eq, decide_eq_true_eq] at hz
  congr 1
  funext b
  dsimp only
  rw [grisu2_same hE T bits hb hfin h0 hsz, grisu2_same C66_double_evaluation T bits hb hfin h0 hsz, grisu2_reasonable hE T bits hb hfin h0]

/-- **C83, printing to a string.** -/
theorem C83_to_string (T : FloatType) (E : FpEval) (hE : Reasonable E) (bits : Nat) (hb : bits < 2 ^ T.W) (sz : Nat)
    (hsz : 32 ≤ sz) :
    @toBasicStringW E sz T bits = @toBasicString E T bits := by
  unfold toBasicStringW toBasicString
  rw [C83_ftoa T E hE bits hb sz hsz]

/-- **C83 is about a real difference.** With 16 bits the decimal exponent of "0.5" would
be read as 65535, and the answer would be an overflow to infinity. -/
theorem C83_not_16 (fb : Fallback) (errno : Nat) :
    @fromStringW cLocale 16 .double fb errno (chars "0.5") =
      .ok { value := 0x7FF0000000000000, status := .overflow, strEnd := 3, errno := errno, fellBack := false } ∧
    @fromString cLocale .double fb errno (chars "0.5") =
      .ok { value := 0x3FE0000000000000, status := .success, strEnd := 3, errno := errno, fellBack := false } := by
  have h1 : @kroshW cLocale 16 .double (chars "0.5" ++ [0]) 0 =
      .ok { value := 0x7FF0000000000000, status := .overflow, strEnd := 3, isAccurate := true } := by decide +kernel
  have h2 : @krosh cLocale .double (chars "0.5" ++ [0]) 0 =
      .ok { value := 0x3FE0000000000000, status := .success, strEnd := 3, isAccurate := true } := by decide +kernel
  constructor
  · unfold fromStringW atofW
    rw [h1]; rfl
  · unfold fromString atof
    rw [h2]; rfl

/-- With 32 bits "0.5" is read as with 64. -/
example (fb : Fallback) (errno : Nat) :
    @fromStringW cLocale 32 .double fb errno (chars "0.5") =
      .ok { value := 0x3FE0000000000000, status := .success, strEnd := 3, errno := errno, fellBack := false } :=
  (C83_from_string cLocale .double fb errno 32 (by decide) (chars "0.5") (by decide)).trans (C83_not_16 fb errno).2

/-- With 32 bits `-2.1` is printed as with 64. -/
example : ftoaW 32 .double 0xC000CCCCCCCCCCCD [9, 9, 9, 9, 9, 7] = .ok (chars "-2.1" ++ [0, 7], 4) :=
  (C83_ftoa .double doubleEval C66_double_evaluation 0xC000CCCCCCCCCCCD (by decide) 32 (by decide) _).trans
    (C02_ftoa_exact_fit .double 0xC000CCCCCCCCCCCD (chars "-2.1") (by decide)
      (prints_eval (by decide) (by decide +kernel)) [9, 9, 9, 9, 9, 7] (by decide))

end Floaxie
