import Verif.Prop.Sequence

/-!
# A line of numbers from elsewhere (C94)

The reading loop of C58 on a text somebody else wrote.
-/

namespace Floaxie

open Spec FloatType

/-- `from_string` reads the text of `n`, and nothing else, as `v` with status `st`, consumes it and does not ask the fallback. -/
def ReadsAlone (T : FloatType) (n : Numeral) (v : Nat) (st : Status) : Prop :=
  ∀ (fb : Fallback) (errno : Nat), fromString T fb errno n.text = .ok ⟨v, st, n.text.length, errno, false⟩

/-- The number in front of a separator. -/
theorem read_alone {T : FloatType} {sep : Nat} (hsep : Separator sep) {n : Numeral} {v : Nat} {st : Status}
    (hat : NumeralAt (n.text ++ [0]) 0 n) (hr : ReadsAlone T n v st) (fb : Fallback) (errno : Nat) (pre R : List Nat) :
    atof T fb errno (pre ++ (n.text ++ sep :: R)) pre.length = .ok ⟨v, st, pre.length + n.text.length, errno, false⟩ := by
  obtain ⟨s1, s2, s3, s4, -, -⟩ := hsep
  have hat' : NumeralAt (pre ++ (n.text ++ sep :: R)) pre.length n :=
    ⟨hat.valid, ⟨sep, R, by rw [List.drop_left], s1, fun _ => ⟨s3, s4, fun c => absurd c s2⟩, fun _ => s2⟩,
      hat.mantLen, hat.expLen, hat.exp⟩
  obtain ⟨r, r', h1, h2, h3⟩ := atof_same T fb errno errno _ _ 0 pre.length n n hat hat' ⟨rfl, rfl, rfl⟩
  have h4 := hr fb errno
  unfold fromString at h4
  rw [h4, Except.ok.injEq] at h1
  subst h1
  rcases h3 with ⟨h3, -⟩ | ⟨vp, vn, st', -, h5, h6⟩
  · exact absurd h3.1 (by simp)
  · simp only [AtofResult.mk.injEq, Nat.zero_add, and_true] at h5
    rw [h2, h6, ← h5.1, ← h5.2.1, ← h5.2.2]

/-- **C94.** Numerals one after another, a separator after each, anywhere in memory: the loop that reads a number and
goes on behind the character after its end gives for each of them what `from_string` gives for it alone - if these
calls consume the numerals and do not ask the fallback. -/
theorem C94_list (T : FloatType) (sep : Nat) (hsep : Separator sep) (fb : Fallback) (rest : List Nat) :
    ∀ (ns : List Numeral) (rs : List (Nat × Status)) (pre : List Nat) (errno : Nat),
      List.Forall₂ (fun n r => NumeralAt (n.text ++ [0]) 0 n ∧ ReadsAlone T n r.1 r.2) ns rs →
      readAll T fb (pre ++ (joined sep (ns.map Numeral.text) ++ 0 :: rest)) ns.length errno pre.length = .ok rs := by
  intro ns
  induction ns with
  | nil => intro rs pre errno h; cases h; rfl
  | cons n ns ih =>
    intro rs pre errno h
    cases h with
    | @cons _ r _ rs h1 h2 =>
      have hj : joined sep ((n :: ns).map Numeral.text) ++ 0 :: rest =
          n.text ++ sep :: (joined sep (ns.map Numeral.text) ++ 0 :: rest) := by simp [joined]
      rw [hj, List.length_cons, readAll, read_alone hsep h1.1 h1.2, ok_bind]
      have hm : pre ++ (n.text ++ sep :: (joined sep (ns.map Numeral.text) ++ 0 :: rest)) =
          (pre ++ (n.text ++ [sep])) ++ (joined sep (ns.map Numeral.text) ++ 0 :: rest) := by simp
      have hl : pre.length + n.text.length + 1 = (pre ++ (n.text ++ [sep])).length := by simp; omega
      dsimp only
      rw [hm, hl, ih rs _ errno h2, ok_bind]
      rfl

/-- A character that could belong to a number does not separate: "1.5 2 " is read as 1.5 and 2, but "1.5e2e", with `e`
after each number, gives 150 first. -/
theorem C94_separator_needed (fb : Fallback) (errno : Nat) :
    readAll .double fb (chars "1.5 2 \x00") 2 errno 0 =
      .ok [(0x3FF8000000000000, .success), (0x4000000000000000, .success)] ∧
    readAll .double fb (chars "1.5e2e\x00") 1 errno 0 = .ok [(0x4062C00000000000, .success)] := by
  have k1 : krosh .double (chars "1.5 2 \x00") 0 = .ok ⟨0x3FF8000000000000, 3, .success, true⟩ := by decide +kernel
  have k2 : krosh .double (chars "1.5 2 \x00") 4 = .ok ⟨0x4000000000000000, 5, .success, true⟩ := by decide +kernel
  have k3 : krosh .double (chars "1.5e2e\x00") 0 = .ok ⟨0x4062C00000000000, 5, .success, true⟩ := by decide +kernel
  constructor
  · simp only [readAll]
    rw [atof_of_krosh k1 (by decide), if_pos rfl, ok_bind]
    dsimp only
    rw [atof_of_krosh k2 (by decide), if_pos rfl, ok_bind]
    rfl
  · simp only [readAll]
    rw [atof_of_krosh k3 (by decide), if_pos rfl, ok_bind]
    rfl

/-- "-0.25" -/
def aQuarterOff : Numeral := ⟨some true, [0], some [2, 5], none⟩
/-- "12e+2" -/
def twelveHundred : Numeral := ⟨none, [1, 2], none, some ⟨false, some false, [2]⟩⟩

/-- The hypotheses are met, by "-0.25" and "12e+2". -/
example (fb : Fallback) (errno : Nat) (pre rest : List Nat) :
    readAll .float fb (pre ++ (chars "-0.25;12e+2;" ++ 0 :: rest)) 2 errno pre.length =
      .ok [(0xBE800000, .success), (0x44960000, .success)] := by
  have k1 : krosh .float (aQuarterOff.text ++ [0]) 0 = .ok ⟨0xBE800000, 5, .success, true⟩ := by decide +kernel
  have k2 : krosh .float (twelveHundred.text ++ [0]) 0 = .ok ⟨0x44960000, 5, .success, true⟩ := by decide +kernel
  refine C94_list .float ';'.toNat (by decide) fb rest [aQuarterOff, twelveHundred] [(0xBE800000, .success), (0x44960000, .success)] pre errno
    (.cons ⟨numeralAt_cstr ⟨by decide, by intro e he; cases he⟩ (by decide) (by intro e he; cases he), fun fb errno => ?_⟩
      (.cons ⟨numeralAt_cstr ⟨by decide, by intro e he; cases he; decide⟩ (by decide) (by intro e he; cases he; exact ⟨by decide, by decide, by decide⟩), fun fb errno => ?_⟩ .nil))
  · unfold fromString; rw [atof_of_krosh k1 (by decide)]; rfl
  · unfold fromString; rw [atof_of_krosh k2 (by decide)]; rfl

end Floaxie
