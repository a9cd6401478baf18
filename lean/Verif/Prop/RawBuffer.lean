import Verif.Proof.RawBuffer
import Verif.Prop.Eval
import Verif.Prop.Threads
import Verif.Prop.Ftoa
import Verif.Prop.Shortest

/-!
# C101: buffers that were not initialised, and calls that are interrupted
-/

namespace Floaxie
open Spec FloatType Prog

/-- With all characters initialised, running on a raw buffer is running. -/
theorem runRaw_full {α : Type} (p : Prog α) (m m' : List Nat) (a : α) (rest : List (Slot Nat)) (h : run p m = .ok (m', a)) :
    runRaw p (m.map some ++ rest) = .ok (m'.map some ++ rest, a) := by
  induction p generalizing m with
  | ret b =>
    simp only [run, Except.ok.injEq, Prod.mk.injEq] at h
    obtain ⟨rfl, rfl⟩ := h
    rfl
  | fail e => cases h
  | load i k ih =>
    simp only [run] at h
    cases hc : m[i]? with
    | none => rw [hc] at h; cases h
    | some c =>
      rw [hc] at h
      obtain ⟨hl, hg⟩ := List.getElem?_eq_some_iff.mp hc
      have : (m.map some ++ rest)[i]? = some (some c) := by
        rw [List.getElem?_append_left (by simpa using hl), List.getElem?_map, hc]; rfl
      simp only [runRaw, this]
      exact ih c m h
  | store i c k ih =>
    simp only [run] at h
    split_ifs at h with hl
    have : i < (m.map some ++ rest).length := by simp; omega
    simp only [runRaw, if_pos this]
    rw [List.set_append_left _ _ (by simpa using hl), ← List.map_set]
    exact ih _ h

/-- What a run never touches stays, at every moment. -/
theorem afterRaw_append {α : Type} (p : Prog α) (u u' rest : List (Slot Nat)) (a : α) (h : runRaw p u = .ok (u', a)) (k : Nat) :
    ∃ v, v.length = u.length ∧ afterRaw k p (u ++ rest) = v ++ rest := by
  induction p generalizing u k with
  | ret b => cases k <;> exact ⟨u, rfl, rfl⟩
  | fail e => cases h
  | load i f ih =>
    cases k with
    | zero => exact ⟨u, rfl, rfl⟩
    | succ k =>
      simp only [runRaw] at h
      cases hc : u[i]? with
      | none => rw [hc] at h; cases h
      | some x =>
        rw [hc] at h
        cases x with
        | none => cases h
        | some c =>
          obtain ⟨hl, -⟩ := List.getElem?_eq_some_iff.mp hc
          have : (u ++ rest)[i]? = some (some c) := by rw [List.getElem?_append_left hl, hc]
          simp only [afterRaw, this]
          exact ih c u h k
  | store i c f ih =>
    cases k with
    | zero => exact ⟨u, rfl, rfl⟩
    | succ k =>
      simp only [runRaw] at h
      split_ifs at h with hl
      have : i < (u ++ rest).length := by simp; omega
      simp only [afterRaw, if_pos this]
      rw [List.set_append_left _ _ hl]
      obtain ⟨v, h1, h2⟩ := ih _ h k
      exact ⟨v, by simpa using h1, h2⟩

/-- **C101, printing.** The buffer need not be initialised, not even partly: `ftoa` reads no character that it
has not written itself.  The text and its terminator have values afterwards, the rest of the buffer is as it was. -/
theorem C101_print_into_raw (T : FloatType) (E : FpEval) (hE : Reasonable E) (bits : Nat) (s : List Nat) (hb : bits < 2 ^ T.W)
    (hs : Prints T bits s) (u : List (Slot Nat)) (hu : s.length + 1 ≤ u.length) :
    runRaw (@ftoaP E T bits) u = .ok ((s ++ [0]).map some ++ u.drop (s.length + 1), s.length) := by
  have key : ∀ d, ∃ u', runRaw (@ftoaP E T bits) u = .ok (u', s.length) ∧
      conc d u' = s ++ 0 :: (conc d u).drop (s.length + 1) := by
    intro d
    have h0 := C02_ftoa_exact_fit T bits s hb hs (conc d u) (by rw [conc_length]; exact hu)
    rw [← (C66_same_text T E hE bits hb (conc d u)).1] at h0
    obtain ⟨u', e1, e2, -, -⟩ := @adds_ftoa d (fun _ => False) E T bits _ _ _ h0 u rfl (fun _ h => h.elim)
    exact ⟨u', e1, e2⟩
  obtain ⟨u', e1, e2⟩ := key 0
  obtain ⟨u'', g1, g2⟩ := key 1
  rw [e1] at g1
  simp only [Except.ok.injEq, Prod.mk.injEq, and_true] at g1
  subst g1
  rw [e1]
  congr 2
  have hl : u'.length = u.length := by
    have := congrArg List.length e2
    simp [conc_length] at this; omega
  apply List.ext_getElem?
  intro i
  have a0 := congrArg (fun l => l[i]?) e2
  have a1 := congrArg (fun l => l[i]?) g2
  by_cases hi : i < s.length + 1
  · have hm : ∀ d, (s ++ 0 :: (conc d u).drop (s.length + 1))[i]? = (s ++ [0])[i]? := by
      intro d
      rw [show s ++ 0 :: (conc d u).drop (s.length + 1) = (s ++ [0]) ++ (conc d u).drop (s.length + 1) by simp,
        List.getElem?_append_left (by simpa using hi)]
    rw [hm] at a0 a1
    simp only [conc, List.getElem?_map] at a0 a1
    rw [List.getElem?_append_left (by simpa using hi), List.getElem?_map, ← a0]
    cases hx : u'[i]? with
    | none => rfl
    | some x =>
      cases x with
      | some c => rfl
      | none =>
        rw [hx] at a0 a1
        rw [← a0] at a1
        simp at a1
  · have hm : ∀ d, (s ++ 0 :: (conc d u).drop (s.length + 1))[i]? = (conc d u)[i]? := by
      intro d
      rw [show s ++ 0 :: (conc d u).drop (s.length + 1) = (s ++ [0]) ++ (conc d u).drop (s.length + 1) by simp,
        List.getElem?_append_right (by simp; omega), List.getElem?_drop]
      congr 1
      simp; omega
    rw [hm] at a0 a1
    simp only [conc, List.getElem?_map] at a0 a1
    have hr : ((s ++ [0]).map some ++ u.drop (s.length + 1))[i]? = u[i]? := by
      rw [List.getElem?_append_right (by simp; omega), List.getElem?_drop]
      congr 1
      simp; omega
    rw [hr]
    cases hx : u'[i]? with
    | none =>
      rw [hx] at a0
      cases hy : u[i]? with
      | none => rfl
      | some y => rw [hy] at a0; cases a0
    | some x =>
      cases hy : u[i]? with
      | none => rw [hx, hy] at a0; cases a0
      | some y =>
        rw [hx, hy] at a0 a1
        simp only [Option.map_some, Option.some.injEq] at a0 a1
        cases x with
        | some a => cases y with
          | some b => exact congrArg (fun t => some (some t)) a0
          | none => simp only [Option.getD_some, Option.getD_none] at a0 a1; omega
        | none => cases y with
          | some b => simp only [Option.getD_some, Option.getD_none] at a0 a1; omega
          | none => rfl

/-- **C101, interrupted.** Wherever the call is interrupted - after any number of accesses -, the characters behind the
place of the terminator are as they were. -/
theorem C101_interrupted (T : FloatType) (E : FpEval) (hE : Reasonable E) (bits : Nat) (s : List Nat) (hb : bits < 2 ^ T.W)
    (hs : Prints T bits s) (u : List (Slot Nat)) (hu : s.length + 1 ≤ u.length) (k : Nat) :
    (afterRaw k (@ftoaP E T bits) u).length = u.length ∧
      (afterRaw k (@ftoaP E T bits) u).drop (s.length + 1) = u.drop (s.length + 1) := by
  have h := C101_print_into_raw T E hE bits s hb hs (u.take (s.length + 1)) (by simp; omega)
  obtain ⟨v, h1, h2⟩ := afterRaw_append _ _ _ (u.drop (s.length + 1)) _ h k
  rw [List.take_append_drop] at h2
  rw [h2]
  have hv : v.length = s.length + 1 := by rw [h1]; simp; omega
  exact ⟨by simp [hv]; omega, by rw [← hv, List.drop_left]⟩

/-- **C101, parsing.** Whatever lies behind the terminator of the string need not have a value either. -/
theorem C101_read_in_raw [L : Locale] (T : FloatType) (fb : Fallback) (fbP : Nat → Prog FallbackResult) (errno : Nat)
    (s : List Nat) (rest : List (Slot Nat)) (r : AtofResult)
    (hfb : run (fbP errno) (s ++ [0]) = .ok (s ++ [0], fb (s ++ [0]) 0 errno)) (hfb' : NoStore (fbP errno))
    (h : atof T fb errno (s ++ [0]) 0 = .ok r) :
    runRaw (atofP T fbP errno (s.length + 2)) ((s ++ [0]).map some ++ rest) = .ok ((s ++ [0]).map some ++ rest, r) := by
  have hr := (ro_atof (m := s ++ [0]) T (fbP := fbP) (fb := fb) (errno := errno) ⟨hfb, hfb'⟩).1
  rw [h, List.length_append, List.length_singleton] at hr
  exact runRaw_full _ _ _ _ _ hr

/-- The hypotheses are met: 0.1 into ten characters of stack. -/
example : runRaw (@ftoaP doubleEval .double 0x3FB999999999999A) (List.replicate 10 none) =
    .ok ([some 48, some 46, some 49, some 0, none, none, none, none, none, none], 3) :=
  C101_print_into_raw .double doubleEval C66_double_evaluation 0x3FB999999999999A (chars "0.1") (by decide)
    (prints_of_string (by decide) (by decide +kernel)) (List.replicate 10 none) (by decide)

/-- 1.5 into a buffer of sevens: after three accesses there are the two digits and no point yet, one later (the second
digit has been read) the same, one later the digit stands one place to the right also. -/
example : afterRaw 3 (@ftoaP doubleEval .double 0x3FF8000000000000) (List.replicate 6 (some 7)) =
      [some 49, some 53, some 7, some 7, some 7, some 7] ∧
    afterRaw 5 (@ftoaP doubleEval .double 0x3FF8000000000000) (List.replicate 6 (some 7)) =
      [some 49, some 53, some 53, some 7, some 7, some 7] := by
  constructor <;> decide +kernel

/-- The text just printed is read from the same buffer, the rest of which never had a value. -/
example : runRaw (@atofP cLocale .double peek 0 5) ([some 48, some 46, some 49, some 0] ++ [none, none, none]) =
      .ok ([some 48, some 46, some 49, some 0] ++ [none, none, none], ⟨0x3FB999999999999A, .success, 3, 0, false⟩) :=
  @C101_read_in_raw cLocale .double (fun m _ e => ⟨m.headD 0, 1, e⟩) peek 0 (chars "0.1") [none, none, none] _
    rfl (fun _ => trivial) (by decide +kernel)

end Floaxie
