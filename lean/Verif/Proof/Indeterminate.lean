import Verif.Model.Indeterminate
import Verif.Proof.Word

/-! # No indeterminate value is used -/

namespace Floaxie

open FloatType

theorem liftI_ok {α : Type} (a : α) : liftI (.ok a : M α) = .ok a := rfl
theorem liftI_pure {α : Type} (a : α) : liftI (pure a : M α) = .ok a := rfl
theorem liftI_error {α : Type} (e : UB) : liftI (.error e : M α) = .error (.ub e) := rfl
theorem okI {α β : Type} (a : α) (f : α → I β) : (Except.ok a >>= f : I β) = f a := rfl
theorem pureI {α β : Type} (a : α) (f : α → I β) : (pure a >>= f : I β) = f a := rfl
theorem errI {α β : Type} (e : Fault) (f : α → I β) : (Except.error e >>= f : I β) = .error e := rfl
theorem readI {α : Type} (a : α) : Slot.read (some a) = .ok a := rfl

theorem liftI_bind {α β : Type} (x : M α) (f : α → M β) : liftI (x >>= f) = liftI x >>= fun a => liftI (f a) := by
  cases x with
  | error e => rfl
  | ok a => rfl

theorem roundUpI_eq (el : Elision) (W x n : Nat) :
    roundUpI el W x n = liftI (roundUp W x n) >>= fun r => .ok { value := some r.value, isAccurate := some r.isAccurate } := by
  unfold roundUpI roundUp
  cases assertM (decide (n > 0)) with
  | error e => rfl
  | ok _ =>
    cases raisedBit W (n - 1) with
    | error e => rfl
    | ok b =>
      simp only [ok_bind, liftI_ok, okI]
      by_cases h : el.roundUp = true <;> simp only [h, if_true, if_false, Bool.false_eq_true] <;> rfl

theorem downsampleI_eq (el : Elision) (T : FloatType) (w : DiyFp) :
    w.downsampleI el T = liftI (w.downsample T) >>= fun r =>
      .ok { value := some r.value, status := some r.status, isAccurate := some r.isAccurate } := by
  unfold DiyFp.downsampleI DiyFp.downsample
  cases assertM (w.f != 0) with
  | error e => rfl
  | ok _ =>
    cases w.isNormalized T.W with
    | error e => rfl
    | ok b =>
      simp only [ok_bind, liftI_ok, okI]
      cases assertM b with
      | error e => rfl
      | ok _ =>
        simp only [ok_bind, liftI_ok, okI]
        split_ifs with h1 h2 h3 h3 h3
        · rfl
        · rfl
        · rfl
        · rfl
        all_goals
          cases assertM (decide (positivePart (T.minExp - T.mbs - w.e - 1) < T.W)) with
          | error e => rfl
          | ok _ =>
            simp only [ok_bind, liftI_ok, okI]
            rw [roundUpI_eq]
            cases roundUp T.W w.f (max (positivePart (T.minExp - T.mbs - w.e - 1)) (T.W - T.p)) with
            | error e => rfl
            | ok r =>
              simp only [ok_bind, liftI_ok, okI, readI]
              rfl

theorem adjustMantissaI_eq (el : Elision) (T : FloatType) (P frac : Nat) :
    adjustMantissaI el T (.of { f := P, e := 0 }) frac = liftI (adjustMantissa T P frac) >>= fun w => .ok (.of w) := by
  unfold adjustMantissaI adjustMantissa
  simp only [DiyFpObj.of, DiyFpObj.read, readI, okI, pureI]
  cases DiyFp.normalize T.W { f := P, e := 0 } with
  | error e => rfl
  | ok w =>
    simp only [ok_bind, liftI_ok, okI]
    by_cases hf : frac ≠ 0
    · simp only [if_pos hf]
      cases assertM (decide (w.e > -(fractionBinaryDigits : Int))) with
      | error e => rfl
      | ok _ =>
        simp only [ok_bind, liftI_ok, okI]
        rw [roundUpI_eq]
        cases roundUp 8 frac ((fractionBinaryDigits : Int) + w.e).toNat with
        | error e => rfl
        | ok r =>
          simp only [ok_bind, liftI_ok, okI, readI]
          cases r.value <;> rfl
    · simp only [if_neg hf]; rfl

/-- The object `parse_mantissa` returns when the compiler constructs it in place. -/
def mantissaObj (r : MantissaParseResult) : MantissaObj :=
  { value := if r.special = .no then .of r.value else { f := none, e := none }
    K := if r.special = .no then some r.K else none
    strEnd := some r.strEnd, special := some r.special, sign := some r.sign }

theorem parseMantissaI_eq [Locale] (el : Elision) (T : FloatType) (mem : List Nat) (str : Nat) :
    parseMantissaI el T mem str = liftI (parseMantissa T mem str) >>= fun r =>
      if el.mantissa ∨ r.special = .no then .ok (mantissaObj r) else .error .indeterminate := by
  unfold parseMantissaI parseMantissa
  cases parseDigits T mem str with
  | error e => rfl
  | ok dp =>
    simp only [ok_bind, liftI_ok, okI]
    by_cases hs : dp.special = .no
    · simp only [hs, if_true, or_true]
      by_cases hv : dp.value ≠ 0
      · simp only [if_pos hv]
        rw [adjustMantissaI_eq]
        cases adjustMantissa T dp.value dp.frac with
        | error e => rfl
        | ok w => cases el.mantissa <;> rfl
      · simp only [if_neg hv]
        cases el.mantissa <;> rfl
    · simp only [hs, if_false, or_false]
      simp only [pure_bind', pureI, liftI_pure, okI, or_false, hs]
      cases hm : el.mantissa
      · simp only [Bool.false_eq_true, if_false]; rfl
      · simp only [if_true, mantissaObj, hs, if_false]; rfl

theorem parseExponentI_eq [Locale] (el : Elision) (mem : List Nat) (str : Nat) :
    parseExponentI el mem str = liftI (parseExponent mem str) >>= fun r =>
      .ok { value := some r.value, strEnd := some r.strEnd } := by
  unfold parseExponentI parseExponent
  cases rd mem str with
  | error e => rfl
  | ok c =>
    simp only [ok_bind, liftI_ok, okI]
    by_cases hc : c ≠ 'e'.toNat ∧ c ≠ 'E'.toNat
    · simp only [if_pos hc]
      cases el.exponent <;> rfl
    · simp only [if_neg hc]
      cases parseDigits .float mem (str + 1) with
      | error e => rfl
      | ok dp =>
        simp only [ok_bind, liftI_ok, okI]
        cases seqPow 32 exponentDecimalDigits (dp.K % 2 ^ 64).toNat with
        | error e => rfl
        | ok pw =>
          simp only [ok_bind, liftI_ok, okI, readI]
          by_cases hsg : (!dp.sign) = true
          · simp only [if_pos hsg]
            cases chkInt (-toInt32 (dp.value * pw)) with
            | error e => rfl
            | ok v => cases el.exponent <;> rfl
          · simp only [if_neg hsg]
            cases el.exponent <;> rfl

theorem kroshEndI_eq (el : Elision) (T : FloatType) (mp : MantissaObj) (s a : Bool) (v p : Nat) (st : Status)
    (hs : mp.sign = some s) :
    kroshEndI el T mp { value := some v, strEnd := some p, status := some st, isAccurate := some a } =
      .ok { value := some (if !s then negBits T v else v), strEnd := some p, status := some st, isAccurate := some a } := by
  unfold kroshEndI
  rw [hs, readI, okI]
  cases s <;> cases el.krosh <;> rfl

/-- `krosh` with indeterminate values, and without. -/
theorem kroshI_eq [Locale] (el : Elision) (T : FloatType) (mem : List Nat) (str : Nat) :
    kroshI el T mem str = liftI (parseMantissa T mem str) >>= fun mp =>
      if el.mantissa ∨ mp.special = .no then
        liftI (krosh T mem str) >>= fun r =>
          .ok { value := some r.value, strEnd := some r.strEnd, status := some r.status, isAccurate := some r.isAccurate }
      else .error .indeterminate := by
  unfold kroshI krosh
  rw [parseMantissaI_eq]
  cases parseMantissa T mem str with
  | error e => rfl
  | ok mp =>
    simp only [ok_bind, liftI_ok, okI]
    by_cases hcase : el.mantissa = true ∨ mp.special = .no
    swap
    · simp only [if_neg hcase]; rfl
    simp only [if_pos hcase, okI]
    by_cases hsp : mp.special = .no
    · have hobj : mantissaObj mp = { value := .of mp.value, K := some mp.K, strEnd := some mp.strEnd, special := some mp.special, sign := some mp.sign } := by
        simp only [mantissaObj, hsp, if_true]
      simp only [hobj, MantissaObj.isNumber, readI, okI, hsp, if_true, DiyFpObj.of]
      by_cases hf : mp.value.f ≠ 0
      · simp only [hf, ne_eq, not_false_eq_true, decide_true, pureI, if_true, and_self]
        rw [parseExponentI_eq]
        cases parseExponent mem mp.strEnd with
        | error e => rfl
        | ok ep =>
          simp only [ok_bind, liftI_ok, okI, readI]
          cases chkInt (mp.K + ep.value) with
          | error e => rfl
          | ok K =>
            simp only [ok_bind, liftI_ok, okI, readI]
            by_cases hK : K ≠ 0 ∧ ¬ (T.powLo ≤ K ∧ K ≤ T.powHi)
            · simp only [if_pos hK]
              by_cases hlo : ¬ T.powLo ≤ K
              · simp only [if_pos hlo]
                cases el.krosh <;> rfl
              · simp only [if_neg hlo]
                cases el.krosh <;> rfl
            · simp only [if_neg hK]
              by_cases hK0 : K ≠ 0
              · simp only [if_pos hK0]
                cases cachedPower T K with
                | error e => rfl
                | ok c =>
                  simp only [ok_bind, liftI_ok, okI, pure_bind', pureI, DiyFpObj.read, readI]
                  show ((liftI ((mp.value.mul T.W c).normalize T.W)) >>= _) = _
                  cases DiyFp.normalize T.W (mp.value.mul T.W c) with
                  | error e => rfl
                  | ok w =>
                    simp only [ok_bind, liftI_ok, okI]
                    rw [downsampleI_eq]
                    cases w.downsample T with
                    | error e => rfl
                    | ok v =>
                      simp only [ok_bind, liftI_ok, okI, readI]
                      rw [kroshEndI_eq (s := mp.sign) (hs := rfl)]
                      rfl
              · simp only [if_neg hK0]
                simp only [pure_bind', pureI, DiyFpObj.read, readI, okI]
                show ((liftI (mp.value.normalize T.W)) >>= _) = _
                cases DiyFp.normalize T.W mp.value with
                | error e => rfl
                | ok w =>
                  simp only [ok_bind, liftI_ok, okI]
                  rw [downsampleI_eq]
                  cases w.downsample T with
                  | error e => rfl
                  | ok v =>
                    simp only [ok_bind, liftI_ok, okI, readI]
                    rw [kroshEndI_eq (s := mp.sign) (hs := rfl)]
                    rfl
      · simp only [hf, decide_false, pureI, Bool.false_eq_true, if_false, and_false, readI, okI]
        rw [kroshEndI_eq (s := mp.sign) (hs := rfl)]
        rfl
    · simp only [mantissaObj, MantissaObj.isNumber, readI, okI, hsp, if_false, pureI, Bool.false_eq_true, false_and]
      rw [kroshEndI_eq (s := mp.sign) (hs := rfl)]
      cases mp.special <;> rfl

theorem atofI_eq [Locale] (el : Elision) (T : FloatType) (fb : Fallback) (errno : Nat) (mem : List Nat) (str : Nat) :
    atofI el T fb errno mem str = liftI (parseMantissa T mem str) >>= fun mp =>
      if el.mantissa ∨ mp.special = .no then liftI (atof T fb errno mem str) else .error .indeterminate := by
  unfold atofI
  rw [kroshI_eq]
  cases hm : parseMantissa T mem str with
  | error e => rfl
  | ok mp =>
    simp only [liftI_ok, okI]
    by_cases hcase : el.mantissa = true ∨ mp.special = .no
    swap
    · simp only [if_neg hcase]; rfl
    simp only [if_pos hcase]
    unfold atof
    cases krosh T mem str with
    | error e => rfl
    | ok r =>
      simp only [ok_bind, liftI_ok, okI, readI]
      by_cases he : r.strEnd ≠ str
      · simp only [if_pos he]
        cases r.isAccurate <;> rfl
      · simp only [if_neg he]; rfl

/-! ## Printing -/

theorem genIntLoopI_eq (o : Nat) : ∀ (kappa div p1 : Nat) (buf : List Nat) (len : Nat),
    genIntLoopI o kappa div p1 buf (some len) =
      liftI (genIntLoop o kappa div p1 buf len) >>= fun r => .ok (r.1, some r.2.1, r.2.2)
  | 0, _, _, _, _ => rfl
  | kappa + 1, div, p1, buf, len => by
    unfold genIntLoopI genIntLoop
    by_cases hp : p1 ≠ 0
    · simp only [if_pos hp]
      by_cases hd : div = 0
      · simp only [if_pos hd]; rfl
      · simp only [if_neg hd, readI, okI]
        cases wr buf (o + len) ('0'.toNat + p1 / div) with
        | error e => rfl
        | ok buf' =>
          simp only [ok_bind, liftI_ok, okI]
          exact genIntLoopI_eq o kappa (div / 10) (p1 % div) buf' (len + 1)
    · simp only [if_neg hp]; rfl

theorem genFracLoopI_eq (T : FloatType) (o s oneF : Nat) (sm : Bool) : ∀ (fuel p2 delta : Nat) (buf : List Nat) (len kappa : Nat),
    genFracLoopI T o s oneF sm fuel p2 delta buf (some len) kappa =
      liftI (genFracLoop T o s oneF sm fuel p2 delta buf len kappa) >>= fun r => .ok (r.1, some r.2.1, r.2.2)
  | 0, _, _, _, _, _ => rfl
  | fuel + 1, p2, delta, buf, len, kappa => by
    unfold genFracLoopI genFracLoop
    by_cases hp : p2 > delta
    · simp only [if_pos hp]
      by_cases hd : (sm || (p2 * 10 % 2 ^ T.W) >>> s % 256 != 0) = true
      · simp only [if_pos hd, readI, okI]
        cases wr buf (o + len) ('0'.toNat + (p2 * 10 % 2 ^ T.W) >>> s % 256) with
        | error e => rfl
        | ok buf' =>
          simp only [ok_bind, liftI_ok, okI, pureI, pure_bind']
          exact genFracLoopI_eq T o s oneF sm fuel _ _ buf' (len + 1) _
      · simp only [if_neg hd, pureI, pure_bind']
        exact genFracLoopI_eq T o s oneF sm fuel _ _ buf len _
    · simp only [if_neg hp]; rfl

theorem digitGenI_eq (T : FloatType) (Mp Mm : DiyFp) (buf : List Nat) (o : Nat) (len : Slot Nat) (K : Int) :
    digitGenI T Mp Mm buf o len (some K) =
      liftI (digitGen T Mp Mm buf o K) >>= fun r => .ok (r.1, some r.2.1, some r.2.2) := by
  unfold digitGenI digitGen
  cases assertM (decide (Mp.e ≤ 0)) with
  | error e => rfl
  | ok _ =>
    simp only [ok_bind, liftI_ok, okI]
    cases Mp.sub T.W Mm with
    | error e => rfl
    | ok delta =>
      simp only [ok_bind, liftI_ok, okI]
      cases raisedBit T.W (-Mp.e).toNat with
      | error e => rfl
      | ok oneF =>
        simp only [ok_bind, liftI_ok, okI]
        generalize (Mp.f >>> (-Mp.e).toNat) % 2 ^ 32 = p1
        generalize Mp.f &&& (oneF - 1) = p2
        cases assertM (p1 != 0 || p2 != 0) with
        | error e => rfl
        | ok _ =>
          simp only [ok_bind, liftI_ok, okI]
          by_cases hp : p1 ≠ 0
          · simp only [if_pos hp]
            rw [genIntLoopI_eq]
            cases genIntLoop o (calculateKappaDiv p1).1 (calculateKappaDiv p1).2 p1 buf 0 with
            | error e => rfl
            | ok r =>
              obtain ⟨buf, len, kappa⟩ := r
              simp only [ok_bind, liftI_ok, okI, readI]
              by_cases hc : decide (p2 ≤ delta.f) = true
              · simp only [if_pos hc]; rfl
              · simp only [if_neg hc]
                cases memset buf (o + len) '0'.toNat kappa with
                | error e => rfl
                | ok buf =>
                  simp only [ok_bind, liftI_ok, okI, readI]
                  rw [genFracLoopI_eq]
                  cases genFracLoop T o (-Mp.e).toNat oneF (decide (len + kappa > 0)) (T.W + 1) p2 delta.f buf (len + kappa) 0 with
                  | error e => rfl
                  | ok r => rfl
          · simp only [if_neg hp, readI, okI]
            rw [genFracLoopI_eq]
            have h0 : decide (0 > 0) = false := by decide
            rw [h0]
            cases genFracLoop T o (-Mp.e).toNat oneF false (T.W + 1) p2 delta.f buf 0 0 with
            | error e => rfl
            | ok r => rfl

theorem ftoaI_eq [FpEval] (T : FloatType) (bits : Nat) (buf : List Nat) : ftoaI T bits buf = liftI (ftoa T bits buf) := by
  unfold ftoaI
  by_cases hs : isNan T bits = true ∨ isInf T bits = true ∨ isZero T bits = true
  · rw [if_pos hs]
  · rw [if_neg hs]
    push Not at hs
    unfold ftoa
    simp only [hs.1, hs.2.1, hs.2.2, if_false]
    cases wr buf 0 '-'.toNat with
    | error e => rfl
    | ok buf =>
      simp only [ok_bind, liftI_ok, okI]
      unfold grisu2I grisu2 grisu2At
      cases boundaries T bits with
      | error e => rfl
      | ok b =>
        obtain ⟨wm, wp⟩ := b
        simp only [ok_bind, liftI_ok, okI]
        cases cachedPower T (FpEval.kComp T.alpha wp.e) with
        | error e => rfl
        | ok c =>
          simp only [ok_bind, liftI_ok, okI]
          rw [digitGenI_eq]
          generalize digitGen T _ _ buf _ _ = x
          cases x with
          | error e => rfl
          | ok r =>
            obtain ⟨buf, len, K⟩ := r
            simp only [ok_bind, liftI_ok, okI, readI]
            generalize prettify _ _ _ _ _ = y
            cases y <;> rfl

end Floaxie
