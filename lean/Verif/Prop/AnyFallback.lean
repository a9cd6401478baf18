import Verif.Model.AnyFallback
import Verif.Prop.Atof
import Verif.Prop.Special

/-!
# C102: fallbacks of any kind, and calls without end pointer
-/

namespace Floaxie
open Spec FloatType

variable {σ ε : Type}

section
variable [L : Locale]

theorem atofWith_of_krosh {T : FloatType} {fb : Option (Callable σ ε)} {str : Nat} {g : Bool} {w : World σ} {cr : KroshResult}
    (h : krosh T w.mem str = .ok cr) : atofWith T fb str g w =
      (if cr.strEnd ≠ str ∧ cr.isAccurate = false then
        (match fb with
        | none => .error .nullCall
        | some f =>
          match f str g w with
          | none => pure none
          | some (.error e, w') => pure (some (.error e, w'))
          | some (.ok v, w') => pure (some (.ok (v, checkErrno T w'.errno v), w')))
      else .ok (some (.ok (if cr.strEnd ≠ str then (cr.value, cr.status) else (0, .success)),
        if g then { w with endCell := some cr.strEnd } else w))) := by
  unfold atofWith
  rw [h]
  simp only [Except.mapError, bind, Except.bind]
  by_cases h1 : cr.strEnd = str
  · simp [h1, pure, Except.pure]
  · cases cr.isAccurate with
    | true => simp [h1, pure, Except.pure]
    | false =>
      rw [if_pos h1, if_neg (by simp), if_pos ⟨h1, rfl⟩]
      all_goals
        cases fb with
        | none => rfl
        | some f =>
          dsimp only
          rcases f str g w with _ | ⟨_ | _, _⟩ <;> rfl

/-- **C102, the fallback is not asked.** When `atof` decides itself, the fallback plays no part, not even if it is a null
pointer or throws always; nothing in the world changes but the end pointer, and that only if it is given. -/
theorem C102_own (T : FloatType) (fb0 : Fallback) (str : Nat) (w : World σ) (r : AtofResult)
    (h : atof T fb0 w.errno w.mem str = .ok r) (hr : r.fellBack = false) (fb : Option (Callable σ ε)) :
    atofWith T fb str true w = .ok (some (.ok (r.value, r.status), { w with endCell := some r.strEnd })) ∧
    atofWith T fb str false w = .ok (some (.ok (r.value, r.status), w)) := by
  unfold atof at h
  cases hk : krosh T w.mem str with
  | error u => rw [hk] at h; cases h
  | ok cr =>
    rw [hk] at h
    simp only [bind, Except.bind, pure, Except.pure] at h
    rw [atofWith_of_krosh hk, atofWith_of_krosh hk]
    split_ifs at h with h1 h2
    · rw [Except.ok.injEq] at h
      subst h
      simp [h1, h2]
    · rw [Except.ok.injEq] at h
      subst h
      cases hr
    · rw [Except.ok.injEq] at h
      subst h
      simp only [ne_eq, not_not] at h1
      simp [h1]

/-- **C102, the fallback is asked.** It is called once, with the two pointers the caller passed, in the world as it was.
If it is a null pointer this is undefined behaviour.  If it does not return or throws, so does `atof`, and the world is as
the fallback has left it.  If it returns, its value is the result; the end pointer, and all else, is what the fallback has
made of it. -/
theorem C102_asked (T : FloatType) (fb0 : Fallback) (str : Nat) (w : World σ) (r : AtofResult)
    (h : atof T fb0 w.errno w.mem str = .ok r) (hr : r.fellBack = true) (g : Bool) :
    atofWith T (none : Option (Callable σ ε)) str g w = .error .nullCall ∧
    ∀ f : Callable σ ε,
      (f str g w = none → atofWith T (some f) str g w = .ok none) ∧
      (∀ e w', f str g w = some (.error e, w') → atofWith T (some f) str g w = .ok (some (.error e, w'))) ∧
      (∀ v w', f str g w = some (.ok v, w') → atofWith T (some f) str g w = .ok (some (.ok (v,
        if w'.errno ≠ ERANGE then .success else if value T v ≠ 0 then .overflow else .underflow), w'))) := by
  unfold atof at h
  cases hk : krosh T w.mem str with
  | error u => rw [hk] at h; cases h
  | ok cr =>
    rw [hk] at h
    simp only [bind, Except.bind, pure, Except.pure] at h
    have hc : cr.strEnd ≠ str ∧ cr.isAccurate = false := by
      split_ifs at h with h1 h2
      · rw [Except.ok.injEq] at h; subst h; cases hr
      · exact ⟨h1, by simpa using h2⟩
      · rw [Except.ok.injEq] at h; subst h; cases hr
    refine ⟨by rw [atofWith_of_krosh hk, if_pos hc], fun f => ⟨fun e => ?_, fun e w' e1 => ?_, fun v w' e1 => ?_⟩⟩
    · rw [atofWith_of_krosh hk, if_pos hc]; simp only [e]; rfl
    · rw [atofWith_of_krosh hk, if_pos hc]; simp only [e1]; rfl
    · rw [atofWith_of_krosh hk, if_pos hc]
      simp only [e1]
      have := (delegated_of (T := T) (fb := fun _ _ _ => ⟨v, 0, w'.errno⟩) (errno := 0) (mem := []) (str := 0)).2.2.2.2
      dsimp only at this
      rw [this]
      rfl

/-- **C102, undefined behaviour.** Apart from calling a null pointer, the call is undefined exactly when it is with any
other fallback. -/
theorem C102_undefined (T : FloatType) (fb0 : Fallback) (str : Nat) (w : World σ) (fb : Option (Callable σ ε)) (g : Bool) (u : UB) :
    atofWith T fb str g w = .error (.ub u) ↔ atof T fb0 w.errno w.mem str = .error u := by
  cases hk : krosh T w.mem str with
  | error u' =>
    unfold atofWith atof
    rw [hk]
    simp [Except.mapError, bind, Except.bind]
  | ok cr =>
    rw [atofWith_of_krosh hk]
    unfold atof
    rw [hk]
    simp only [bind, Except.bind, pure, Except.pure]
    constructor
    · intro h
      split_ifs at h
      · cases fb with
        | none => cases h
        | some f =>
          dsimp only at h
          split at h <;> cases h
    · intro h
      split_ifs at h

/-- A fallback as assumed elsewhere: it always returns, leaves all but `errno` alone and stores an end pointer if it is
given one, as `strtod` does. -/
def Fallback.callable (fb : Fallback) : Callable σ ε := fun str g w =>
  some (.ok (fb w.mem str w.errno).value, { w with
    errno := (fb w.mem str w.errno).errno
    endCell := if g then some (fb w.mem str w.errno).strEnd else w.endCell })

/-- **C102, the other model.** With such a fallback, what the other theorems say about `atof` holds of this `atof`, with
an end pointer and without; `*str_end` need have no value before the call. -/
theorem C102_with_and_without_end (T : FloatType) (fb : Fallback) (str : Nat) (w : World σ) (r : AtofResult)
    (h : atof T fb w.errno w.mem str = .ok r) :
    atofWith T (some (fb.callable (σ := σ) (ε := ε))) str true w =
      .ok (some (.ok (r.value, r.status), { w with errno := r.errno, endCell := some r.strEnd })) ∧
    atofNullptr T (some (fb.callable (σ := σ) (ε := ε))) str w =
      .ok (some (.ok (r.value, r.status), { w with errno := r.errno })) := by
  unfold atof at h
  unfold atofNullptr
  cases hk : krosh T w.mem str with
  | error u => rw [hk] at h; cases h
  | ok cr =>
    rw [hk] at h
    simp only [bind, Except.bind, pure, Except.pure] at h
    rw [atofWith_of_krosh hk, atofWith_of_krosh hk]
    split_ifs at h with h1 h2
    · rw [Except.ok.injEq] at h
      subst h
      simp [h1, h2]
    · rw [Except.ok.injEq] at h
      subst h
      simp [h1, h2, Fallback.callable, pure, Except.pure]
    · rw [Except.ok.injEq] at h
      subst h
      simp only [ne_eq, not_not] at h1
      simp [h1]

/-- **C102, exceptions.** If the fallback changes nothing when it throws, a call that throws has changed nothing; and
only the fallback throws. -/
theorem C102_strong_guarantee (T : FloatType) (f : Callable σ ε) (str : Nat) (g : Bool) (w w' : World σ) (e : ε)
    (h : atofWith T (some f) str g w = .ok (some (.error e, w'))) :
    f str g w = some (.error e, w') ∧ ((∀ e' w'', f str g w = some (.error e', w'') → w'' = w) → w' = w) := by
  have key : f str g w = some (.error e, w') := by
    cases hk : krosh T w.mem str with
    | error u =>
      unfold atofWith at h
      rw [hk] at h
      cases h
    | ok cr =>
      rw [atofWith_of_krosh hk] at h
      split_ifs at h
      all_goals first
        | (dsimp only at h
           split at h
           · cases h
           · next e1 =>
             simp only [pure, Except.pure, Except.ok.injEq, Option.some.injEq, Prod.mk.injEq, Except.error.injEq] at h
             rw [e1, h.1, h.2]
           · cases h)
        | cases h
  exact ⟨key, fun hw => hw _ _ key⟩

/-- **C102, at most one call.** A fallback that counts its calls (and otherwise does anything with the rest) counts one if
it is asked and none otherwise. -/
theorem C102_one_call (T : FloatType) (fb0 : Fallback) (str : Nat) (w : World Nat) (r : AtofResult)
    (h : atof T fb0 w.errno w.mem str = .ok r) (f : Callable Nat ε)
    (hf : ∀ g (w : World Nat), ∃ x w', f str g w = some (x, w') ∧ w'.other = w.other + 1) (g : Bool) :
    ∃ x w', atofWith T (some f) str g w = .ok (some (x, w')) ∧ w'.other = w.other + (if r.fellBack then 1 else 0) := by
  cases hr : r.fellBack with
  | false =>
    have := C102_own T fb0 str w r h hr (some f)
    cases g with
    | true => exact ⟨_, _, this.1, rfl⟩
    | false => exact ⟨_, _, this.2, rfl⟩
  | true =>
    obtain ⟨-, h2⟩ := C102_asked (ε := ε) T fb0 str w r h hr g
    obtain ⟨-, h3, h4⟩ := h2 f
    obtain ⟨x, w', e1, e2⟩ := hf g w
    cases x with
    | error e => exact ⟨_, _, h3 e w' e1, by simpa using e2⟩
    | ok v => exact ⟨_, _, h4 v w' e1, by simpa using e2⟩

end

/-- **C102, without a fallback.** With a null pointer for the fallback, the call is defined for the numerals of at most
19/9 significant digits whose value the type can represent (whole numbers, for instance), the words for NaN and infinity and
texts without a number, and undefined for the exact ties. -/
theorem C102_null_fallback (T : FloatType) (str : Nat) (g : Bool) (w : World σ) :
    (∀ (n : Numeral) (m : Nat) (k : Int) (b : Nat), NumeralAt w.mem str n → m < 10 ^ T.digits10 → n.absValue = m * 10 ^ k →
      (T = .float → -50 ≤ k) → IsFinite T b → value T b ≠ 0 → n.value = value T b →
      ∃ w', atofWith T (none : Option (Callable σ ε)) str g w = .ok (some (.ok (b, .success), w'))) ∧
    (∀ (s : Option Bool) (isNan : Bool) (word text : List Nat), Nul w.mem str → w.mem.drop str = signText s ++ text →
      LongestWord isNan word text →
      ∃ v w', atofWith T (none : Option (Callable σ ε)) str g w = .ok (some (.ok (v, .success), w')) ∧
        (isNan = true → IsQuietNaN T v) ∧ (isNan = false → IsInf T v)) ∧
    (∀ (s : Option Bool) (k : Nat), Nul w.mem str → NoNumber (w.mem.drop str) s k →
      ∃ v w', atofWith T (none : Option (Callable σ ε)) str g w = .ok (some (.ok (v, .success), w')) ∧ value T v = 0) ∧
    (∀ (n : Numeral) (m : Nat) (k : Int), NumeralAt w.mem str n → m < 10 ^ T.digits10 → n.absValue = m * 10 ^ k →
      (T = .float → -50 ≤ k) → 2 ^ emin T ≤ n.absValue → n.absValue < overflowThreshold T → IsTie T n.absValue →
      atofWith T (none : Option (Callable σ ε)) str g w = .error .nullCall) := by
  have own : ∀ r : AtofResult, atof T (fun _ _ _ => ⟨0, 0, 0⟩) w.errno w.mem str = .ok r → r.fellBack = false →
      ∃ w', atofWith T (none : Option (Callable σ ε)) str g w = .ok (some (.ok (r.value, r.status), w')) := by
    intro r h hr
    have := C102_own (ε := ε) T _ str w r h hr none
    cases g with
    | true => exact ⟨_, this.1⟩
    | false => exact ⟨_, this.2⟩
  refine ⟨?_, ?_, ?_, ?_⟩
  · intro n m k b h hm hmk hk hb h0 hv
    exact own _ (C35_representable_exact T _ w.errno w.mem str n h m k hm hmk hk b hb h0 hv) rfl
  · intro s isNan word text hn hm hw
    obtain ⟨v, h1, h2, h3, -⟩ := C33_words T (fun _ _ _ => ⟨0, 0, 0⟩) w.errno w.mem str s isNan word text hn hm hw
    obtain ⟨w', h4⟩ := own _ h1 rfl
    exact ⟨v, w', h4, h2, h3⟩
  · intro s k hn h
    have h1 := C32_no_number T (fun _ _ _ => ⟨0, 0, 0⟩) w.errno w.mem str s k hn h
    obtain ⟨w', h4⟩ := own _ h1 rfl
    refine ⟨_, w', h4, ?_⟩
    split_ifs
    · show value T (neg T 0) = 0
      cases T <;> decide +kernel
    · show value T 0 = 0
      cases T <;> decide +kernel
  · intro n m k h hm hmk hk hx1 hx2 ht
    obtain ⟨r, h1, h2, -⟩ := C37_fallback_on_ties T (fun _ _ _ => ⟨0, 0, 0⟩) w.errno w.mem str n h m k hm hmk hk hx1 hx2
    exact (C102_asked (ε := ε) T _ str w r h1 (h2 ht).1 g).1

/-- **C102, refuted.** That the end pointer has a value after every call that returns - it need not, if the fallback does
not store one: on 9007199254740993, which is a tie. -/
theorem C102_end_refuted : atofWith .double
    (some (fun _ _ w => some (.ok 0x4340000000000000, w)) : Option (Callable Unit Empty)) 0 true
      ⟨chars "9007199254740993" ++ [0], 0, none, ()⟩ =
    .ok (some (.ok (0x4340000000000000, .success), ⟨chars "9007199254740993" ++ [0], 0, none, ()⟩)) := by
  have h : krosh .double (chars "9007199254740993" ++ [0]) 0 = .ok ⟨0x4340000000000000, 16, .success, false⟩ := by decide +kernel
  generalize chars "9007199254740993" ++ [0] = mem at h ⊢
  rw [atofWith_of_krosh (w := ⟨mem, 0, none, ()⟩) h, if_pos (show (16 : Nat) ≠ 0 ∧ false = false from ⟨by decide, rfl⟩)]
  simp [checkErrno, ERANGE, pure, Except.pure]

/-- The hypotheses are met: on the same text a fallback that throws, on a shorter one a null pointer. -/
example (w : World Nat) (h1 : w.mem = chars "9007199254740993" ++ [0]) :
    atofWith .double (some (fun _ _ w => some (.error "no", { w with other := w.other + 1 })) : Option (Callable Nat String)) 0 true w =
      .ok (some (.error "no", { w with other := w.other + 1 })) ∧
    atofWith .double (none : Option (Callable Nat String)) 0 false { w with mem := chars "1.5" ++ [0] } =
      .ok (some (.ok (0x3FF8000000000000, .success), { w with mem := chars "1.5" ++ [0] })) := by
  have h : krosh .double (chars "9007199254740993" ++ [0]) 0 = .ok ⟨0x4340000000000000, 16, .success, false⟩ := by decide +kernel
  have h' : krosh .double (chars "1.5" ++ [0]) 0 = .ok ⟨0x3FF8000000000000, 3, .success, true⟩ := by decide +kernel
  rw [← h1] at h
  constructor
  · rw [atofWith_of_krosh h, if_pos (show (16 : Nat) ≠ 0 ∧ false = false from ⟨by decide, rfl⟩)]; rfl
  · generalize chars "1.5" ++ [0] = mem at h' ⊢
    rw [atofWith_of_krosh (w := { w with mem := mem }) h', if_neg (by simp), if_pos (show (3 : Nat) ≠ 0 by decide)]
    rfl

end Floaxie
