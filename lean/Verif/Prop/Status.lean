import Verif.Prop.Total
import Verif.Prop.BigExponent

/-!
# Value and status fit together on every input (C63)
-/

namespace Floaxie
open Spec FloatType

theorem downsample_inv {T : FloatType} {w : DiyFp} {r : DownsampleResult} (h : w.downsample T = .ok r) :
    r.value < 2 ^ T.W ∧ (r.status = .overflow → r.value = posInf T) ∧ (r.status = .underflow → r.value = 0) ∧
      (r.status ≠ .success → r.isAccurate = true) := by
  have hinf : T.infBits = posInf T := by cases T <;> decide
  have hW : posInf T < 2 ^ T.W := by cases T <;> decide
  unfold DiyFp.downsample at h
  cases h1 : assertM (w.f != 0) with
  | error e => rw [h1] at h; cases h
  | ok u =>
  rw [h1, ok_bind] at h
  cases h2 : w.isNormalized T.W with
  | error e => rw [h2] at h; cases h
  | ok b =>
  rw [h2, ok_bind] at h
  cases h3 : assertM b with
  | error e => rw [h3] at h; cases h
  | ok u' =>
  rw [h3, ok_bind] at h
  dsimp only at h
  by_cases c1 : w.e ≥ T.maxExp
  · rw [if_pos c1] at h
    cases h
    exact ⟨by rw [hinf]; exact hW, fun _ => hinf, fun h => by (cases h), fun _ => rfl⟩
  rw [if_neg c1] at h
  by_cases c2 : w.e + T.W < T.minExp - T.mbs
  · rw [if_pos c2] at h
    cases h
    exact ⟨by positivity, fun h => by (cases h), fun _ => rfl, fun _ => rfl⟩
  rw [if_neg c2] at h
  generalize positivePart (T.minExp - ↑T.mbs - w.e - 1) = dn at h
  cases h4 : assertM (decide (dn < T.W)) with
  | error e => rw [h4] at h; cases h
  | ok u'' =>
  rw [h4, ok_bind] at h
  cases h5 : roundUp T.W w.f (max dn (T.W - T.p)) with
  | error e => rw [h5] at h; cases h
  | ok rd =>
  rw [h5, ok_bind] at h
  cases h
  refine ⟨Nat.or_lt_two_pow (Nat.mod_lt _ (by positivity)) (lt_of_le_of_lt Nat.and_le_left (Nat.mod_lt _ (by positivity))),
    fun h => by (cases h), fun h => by (cases h), fun h => absurd rfl h⟩

/-- Value and status of a conversion. -/
def Consistent (T : FloatType) (value : Nat) (status : Status) : Prop :=
  value < 2 ^ T.W ∧ (status = .overflow → value = posInf T ∨ value = neg T (posInf T)) ∧
    (status = .underflow → value = 0 ∨ value = neg T 0)

theorem krosh_consistent {T : FloatType} {mem : List Nat} {str : Nat} {r : KroshResult} (h : krosh T mem str = .ok r) :
    Consistent T r.value r.status ∧ (r.status ≠ .success → r.isAccurate = true) := by
  have hinf : T.infBits = posInf T := by cases T <;> decide
  have hW : posInf T < 2 ^ T.W := by cases T <;> decide
  have hnan : T.qnanBits < 2 ^ T.W := by cases T <;> decide
  unfold krosh at h
  cases h1 : parseMantissa T mem str with
  | error e => rw [h1] at h; cases h
  | ok mp =>
  rw [h1, ok_bind] at h
  have hsgn : ∀ v, v < 2 ^ T.W → (if !mp.sign then negBits T v else v) < 2 ^ T.W := by
    intro v hv
    split_ifs
    · rw [negBits_eq]; exact (signBit_neg hv).2.2
    · exact hv
  by_cases hs : mp.special = .no ∧ mp.value.f ≠ 0
  · rw [if_pos hs] at h
    cases h2 : parseExponent mem mp.strEnd with
    | error e => rw [h2] at h; cases h
    | ok ep =>
    rw [h2, ok_bind] at h
    cases h3 : chkInt (mp.K + ep.value) with
    | error e => rw [h3] at h; cases h
    | ok K =>
    rw [h3, ok_bind] at h
    by_cases c1 : K ≠ 0 ∧ ¬ (T.powLo ≤ K ∧ K ≤ T.powHi)
    · rw [if_pos c1] at h
      by_cases c2 : ¬ (T.powLo ≤ K)
      · rw [if_pos c2] at h
        cases h
        exact ⟨⟨by positivity, fun h => by (cases h), fun _ => Or.inl rfl⟩, fun _ => rfl⟩
      · rw [if_neg c2] at h
        cases h
        exact ⟨⟨by rw [hinf]; exact hW, fun _ => Or.inl hinf, fun h => by (cases h)⟩, fun _ => rfl⟩
    · rw [if_neg c1] at h
      generalize (if K ≠ 0 then do
          let c ← cachedPower T K
          pure (mp.value.mul T.W c)
        else pure mp.value : M DiyFp) = w1 at h
      cases w1 with
      | error e => cases h
      | ok w1 =>
      rw [ok_bind] at h
      cases h4 : w1.normalize T.W with
      | error e => rw [h4] at h; cases h
      | ok w2 =>
      rw [h4, ok_bind] at h
      cases h5 : w2.downsample T with
      | error e => rw [h5] at h; cases h
      | ok v =>
      rw [h5, ok_bind] at h
      cases h
      obtain ⟨d1, d2, d3, d4⟩ := downsample_inv h5
      refine ⟨⟨hsgn _ d1, fun hst => ?_, fun hst => ?_⟩, d4⟩
      · rw [d2 hst, negBits_eq]; split_ifs
        · exact Or.inr rfl
        · exact Or.inl rfl
      · rw [d3 hst, negBits_eq]; split_ifs
        · exact Or.inr rfl
        · exact Or.inl rfl
  · rw [if_neg hs] at h
    cases h
    refine ⟨⟨hsgn _ ?_, fun h => by (cases h), fun h => by (cases h)⟩, fun h => absurd rfl h⟩
    cases mp.special
    · positivity
    · exact hnan
    · rw [hinf]; exact hW

/-- **C63.** On every input for which the call completes without the fallback,
whatever is in memory: the value is a bit pattern of the type, status overflow
comes with an infinity, status underflow with a zero; and if the fallback is
asked, value, end pointer and `errno` are those it reports. -/
theorem C63_value_status (T : FloatType) (fb : Fallback) (errno : Nat) (mem : List Nat) (str : Nat) (r : AtofResult)
    (h : atof T fb errno mem str = .ok r) :
    (r.fellBack = false → r.value < 2 ^ T.W ∧ r.errno = errno ∧
      (r.status = .overflow → r.value = posInf T ∨ r.value = neg T (posInf T)) ∧
      (r.status = .underflow → r.value = 0 ∨ r.value = neg T 0)) ∧
    (r.fellBack = true → r.value = (fb mem str errno).value ∧ r.strEnd = (fb mem str errno).strEnd ∧
      r.errno = (fb mem str errno).errno ∧
      r.status = if (fb mem str errno).errno ≠ ERANGE then .success
        else if value T (fb mem str errno).value ≠ 0 then .overflow else .underflow) := by
  unfold atof at h
  cases h1 : krosh T mem str with
  | error e => rw [h1] at h; cases h
  | ok cr =>
  rw [h1, ok_bind] at h
  obtain ⟨⟨k1, k2, k3⟩, -⟩ := krosh_consistent h1
  by_cases c1 : cr.strEnd ≠ str
  · rw [if_pos c1] at h
    by_cases c2 : cr.isAccurate = true
    · rw [if_pos c2] at h
      cases h
      exact ⟨fun _ => ⟨k1, rfl, k2, k3⟩, fun h => by (cases h)⟩
    · rw [if_neg c2] at h
      cases h
      obtain ⟨-, d1, d2, d3, d4⟩ := delegated_of (T := T) (fb := fb) (errno := errno) (mem := mem) (str := str)
      exact ⟨fun h => by (cases h), fun _ => ⟨d1, d2, d3, d4⟩⟩
  · rw [if_neg c1] at h
    cases h
    exact ⟨fun _ => ⟨by positivity, rfl, fun h => by (cases h), fun h => by (cases h)⟩, fun h => by (cases h)⟩

/-- Every status occurs: "-1e330" overflows, "-1e-324" underflows (with their
signs), "9007199254740993", a tie, is given to the fallback. -/
example (fb : Fallback) (errno : Nat) :
    atof .double fb errno (chars "-1e330" ++ [0]) 0 = .ok ⟨neg .double (posInf .double), .overflow, 6, errno, false⟩ ∧
    atof .double fb errno (chars "-1e-324" ++ [0]) 0 = .ok ⟨neg .double 0, .underflow, 7, errno, false⟩ ∧
    ∃ r, atof .double fb errno (chars "9007199254740993" ++ [0]) 0 = .ok r ∧ r.fellBack = true := by
  have h1 : krosh .double (chars "-1e330" ++ [0]) 0 = .ok ⟨neg .double (posInf .double), 6, .overflow, true⟩ := by decide +kernel
  have h2 : krosh .double (chars "-1e-324" ++ [0]) 0 = .ok ⟨neg .double 0, 7, .underflow, true⟩ := by decide +kernel
  have h3 : krosh .double (chars "9007199254740993" ++ [0]) 0 = .ok ⟨0x4340000000000000, 16, .success, false⟩ := by decide +kernel
  exact ⟨atof_of_krosh h1 (by decide), atof_of_krosh h2 (by decide), _, atof_of_krosh h3 (by decide), rfl⟩

end Floaxie
