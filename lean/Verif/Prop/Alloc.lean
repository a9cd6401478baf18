import Verif.Proof.Alloc
import Verif.Proof.Krosh
import Verif.Prop.Atof
import Verif.Prop.Spelling

/-!
# C73: dynamic memory
-/

namespace Floaxie

open FloatType Spec

/-- **C73.** Whatever the text, the locale, the fallback: a call of `atof` asks the heap for one
block of 19 (double) / 9 (float) bytes, or for that and, after it was given back, one of 9
bytes; which, does not depend on the heap.  If all requests are granted the result is that of
the model without memory (value or undefined behaviour); if a request is refused the
program is terminated.  Nothing else is requested, and all is given back. -/
theorem C73_blocks (T : FloatType) (L : Locale) (fb : Fallback) (errno : Nat) (mem : List Nat) (str : Nat) :
    ∃ plan, (plan = [T.digits10] ∨ plan = [T.digits10, 9]) ∧ ∀ (H : Heap) (l : List HeapEvent),
      (∀ r, @atof L T fb errno mem str = .ok r → @atofA L H T fb errno mem str l =
        (if (serve H plan l).1 then .ok r else .error .terminate, (serve H plan l).2)) ∧
      (∀ e, @atof L T fb errno mem str = .error e → (@atofA L H T fb errno mem str l).1 =
        .error (if (serve H plan l).1 then .ub e else .terminate)) := by
  refine ⟨@kroshPlan L T mem str, ?_, fun H l => ?_⟩
  · unfold kroshPlan
    split
    · split_ifs
      · exact .inr rfl
      · exact .inl rfl
    · exact .inl rfl
  · obtain ⟨h1, h2⟩ := @atofA_serves L mem T fb errno str H l
    refine ⟨h1, fun e he => ?_⟩
    refine h2.trans ?_
    rw [he]
    split_ifs <;> rfl

/-- **C73, how often.** For a numeral: two blocks if it is not zero and has an exponent part, one otherwise. -/
theorem C73_numeral (T : FloatType) (fb : Fallback) (errno : Nat) (mem : List Nat) (str : Nat) (n : Numeral)
    (h : NumeralAt mem str n) : ∃ r, atof T fb errno mem str = .ok r ∧ ∀ (H : Heap) (l : List HeapEvent),
      atofA H T fb errno mem str l =
        (if (serve H (if n.value ≠ 0 ∧ n.exp ≠ none then [T.digits10, 9] else [T.digits10]) l).1 then .ok r else .error .terminate,
        (serve H (if n.value ≠ 0 ∧ n.exp ≠ none then [T.digits10, 9] else [T.digits10]) l).2) := by
  obtain ⟨r, h1, -⟩ := C28_consumes T fb errno mem str n h
  refine ⟨r, h1, fun H l => ?_⟩
  have hp : kroshPlan T mem str = if n.value ≠ 0 ∧ n.exp ≠ none then [T.digits10, 9] else [T.digits10] := by
    obtain ⟨c, R, hm, he, hd⟩ := h.scan
    obtain ⟨P, K, frac, w, h1, -, h2, h3, h4⟩ := parseMantissa_num (T := T) hm he h.mantLen
    have hz : w.f ≠ 0 ↔ n.value ≠ 0 := by
      rw [← abs_ne_zero (a := n.value), abs_value_num, absValue_eq, mul_ne_zero_iff, and_iff_left (by positivity), ← not_iff_not,
        not_not, not_not, ← h1.zero_iff]
      constructor
      · intro hw
        by_contra hP
        obtain ⟨w', Y, w1, w2, -⟩ := mantissa_ok h1 hP
        rw [h2 hP] at w1
        cases w1
        have : 0 < 2 ^ (T.W - 1) := by positivity
        omega
      · intro hP; rw [h3 hP]
    have hl : expLetter mem (str + (scanText n).length) = true ↔ n.exp ≠ none := by
      obtain ⟨c', R', hm', he'⟩ := h.text
      rw [scan_split, List.append_assoc] at hm'
      have hdrop : mem.drop (str + (scanText n).length) = n.expText ++ c' :: R' := by
        rw [← List.drop_drop, hm', List.drop_left]
      have hg : mem[str + (scanText n).length]? = (n.expText ++ c' :: R')[0]? := by
        rw [← hdrop, List.getElem?_drop, Nat.add_zero]
      unfold expLetter
      rw [hg]
      cases hx : n.exp with
      | none =>
        have : n.expText = [] := by simp [Numeral.expText, hx]
        have g := he'.noExp hx
        rw [this]
        simp
        exact ⟨g.1, g.2.1⟩
      | some e =>
        have : n.expText = e.text := by simp [Numeral.expText, hx]
        rw [this]
        simp [ExpPart.text]
    unfold kroshPlan
    rw [h4]
    dsimp only
    by_cases hc : n.value ≠ 0 ∧ n.exp ≠ none
    · rw [if_pos hc, if_pos ⟨rfl, hz.2 hc.1, hl.2 hc.2⟩]; rfl
    · rw [if_neg hc, if_neg fun g => hc ⟨hz.1 g.2.1, hl.1 g.2.2⟩]
  rw [← hp]
  exact (atofA_serves T fb errno str H l).1 r h1

/-- On a heap that grants everything, "-2.5e1", read as float, takes a block of 9 bytes twice; on one that
grants only the first block, and read as double, the program is terminated. -/
example (fb : Fallback) : ∃ r, atofA (fun _ _ => true) .float fb 0 (chars "-2.5e1" ++ [0]) 0 [] =
    (.ok r, [.request 9 true, .release 9, .request 9 true, .release 9]) := ⟨_, rfl⟩
example (fb : Fallback) : atofA (fun l _ => l.isEmpty) .double fb 0 (chars "-2.5e1" ++ [0]) 0 [] =
    (.error .terminate, [.request 19 true, .release 19, .request 9 false]) := rfl

/-- **C73, peak.** Whatever was granted and given back before: at no time during the call is more than
one block in use; `inUse` counts the bytes requested, granted and not yet given back. -/
theorem C73_peak (T : FloatType) (L : Locale) (H : Heap) (fb : Fallback) (errno : Nat) (mem : List Nat) (str : Nat)
    (r : AtofResult) (l l' : List HeapEvent) (h : @atofA L H T fb errno mem str l = (.ok r, l')) :
    ∃ evs, l' = l ++ evs ∧ inUse evs = 0 ∧ ∀ k, inUse (evs.take k) ≤ T.digits10 := by
  obtain ⟨plan, hp, hs⟩ := C73_blocks T L fb errno mem str
  obtain ⟨h1, h2⟩ := hs H l
  have key : (serve H plan l).1 = true ∧ (serve H plan l).2 = l' := by
    cases ha : @atof L T fb errno mem str with
    | ok r' =>
      have := h1 r' ha
      rw [h] at this
      by_cases hc : (serve H plan l).1 = true
      · exact ⟨hc, by simpa using (congrArg Prod.snd this).symm⟩
      · rw [if_neg hc] at this
        cases congrArg Prod.fst this
    | error e =>
      have := h2 e ha
      rw [h] at this
      cases this
  have ev : ∀ (p : List Nat) (l : List HeapEvent), (serve H p l).1 = true →
      (serve H p l).2 = l ++ p.flatMap fun n => [.request n true, .release n] := by
    intro p
    induction p with
    | nil => intro l _; simp [serve]
    | cons n p ih =>
      intro l hl
      unfold serve at hl ⊢
      split_ifs at hl ⊢ with hc
      rw [ih _ hl]
      simp
  refine ⟨_, key.2.symm.trans (ev plan l key.1), ?_⟩
  have h9 : 9 ≤ T.digits10 := by cases T <;> decide
  rcases hp with rfl | rfl
  · refine ⟨by simp [inUse], fun k => ?_⟩
    rcases k with _ | _ | _ | k <;> simp [inUse]
  · refine ⟨by simp [inUse], fun k => ?_⟩
    rcases k with _ | _ | _ | _ | _ | k <;> simp [inUse] <;> omega

end Floaxie
