import Verif.Proof.Parse

/-! # The whole loop of `parse_digits` -/

namespace Floaxie

open Spec FloatType

/-- There is a NUL at or after index `i`. -/
def Nul (mem : List Nat) (i : Nat) : Prop := ∃ z, i ≤ z ∧ mem[z]? = some 0

theorem Nul.next {mem : List Nat} {i c : Nat} (h : Nul mem i) (hc : mem[i]? = some c)
    (hd : c ≠ 0) : Nul mem (i + 1) := by
  obtain ⟨z, h1, h2⟩ := h
  refine ⟨z, ?_, h2⟩
  rcases Nat.lt_or_eq_of_le h1 with h | h
  · omega
  · subst h; rw [hc] at h2; cases h2; exact absurd rfl hd

theorem Nul.get {mem : List Nat} {i : Nat} (h : Nul mem i) : ∃ c, mem[i]? = some c := by
  obtain ⟨z, h1, h2⟩ := h
  obtain ⟨hz, -⟩ := List.getElem?_eq_some_iff.mp h2
  exact ⟨mem[i], List.getElem?_eq_getElem (by omega)⟩

theorem not_isDig_zero : ¬ IsDig 0 := by unfold IsDig; decide

theorem Nul.stops {mem : List Nat} {i : Nat} (h : Nul mem i) : Stops mem i := by
  obtain ⟨z, h1, h2⟩ := h
  exact ⟨z, 0, h1, h2, not_isDig_zero⟩

/-- Character `c` after the scanned text `n` ends the scan. -/
structure Ender (n : Numeral) (c : Nat) : Prop where
  dig : ¬ IsDig c
  dot : c = '.'.toNat → n.frac.isSome = true
  sign : c = '-'.toNat ∨ c = '+'.toNat → scanText n ≠ []
  word : c = 'n'.toNat ∨ c = 'N'.toNat ∨ c = 'i'.toNat ∨ c = 'I'.toNat →
    n.int ≠ [] ∨ n.frac.isSome = true

/-- Append a point. -/
def addDot (n : Numeral) : Numeral := { n with frac := some [] }

theorem step_dot {T : FloatType} {mem : List Nat} {str : Nat} {n : Numeral} {st : PState}
    (hinv : Inv T.digits10 mem str n st) (hpos : st.pos ≤ 2049) (hn : n.frac = none)
    (hget : mem[str + st.pos]? = some '.'.toNat) :
    ∃ st', parseStep T mem str st = .ok st' ∧ Inv T.digits10 mem str (addDot n) st' := by
  have hdot : st.dotSet = false := by rw [hinv.dot, hn]; rfl
  unfold parseStep
  rw [rd_of hget, ok_bind]
  unfold parseSwitch
  rw [if_neg (by decide), if_neg (by decide), if_pos rfl, pure_bind']
  obtain ⟨s, i, f, e⟩ := n
  simp only at hn; subst hn
  have hscan : scanText (addDot ⟨s, i, none, e⟩) = scanText ⟨s, i, none, e⟩ ++ ['.'.toNat] := by
    simp [scanText, addDot, Numeral.mantText]
  have hD : allDigits (addDot ⟨s, i, none, e⟩) = allDigits ⟨s, i, none, e⟩ := by
    simp [allDigits, addDot, Numeral.fracDigits]
  have hF : (addDot ⟨s, i, none, e⟩).fracDigits.length = (⟨s, i, none, e⟩ : Numeral).fracDigits.length := by
    simp [addDot, Numeral.fracDigits]
  refine ⟨_, rfl, ?_⟩
  refine ⟨?_, ?_, ?_, by dsimp only; omega, rfl, hinv.signSet, hinv.sign, hinv.special, ?_⟩
  · dsimp only; rw [hscan, hinv.pos]; simp
  · dsimp only; rw [hscan, hinv.text, drop_of_get hget]; simp [Nat.add_assoc]
  · dsimp only; rw [hdot]; simp [maximumOffset]; omega
  · rw [hD, hF]
    rcases hinv.core with ⟨e1, e2, e3, e4, e5, e6, e7⟩ | ⟨z, ds, tail, ⟨h1, h2, h3, h4, h5, h6, h7⟩, hlast⟩
    · exact Or.inl ⟨e1, e2, e3, e4, e5, e6, e7⟩
    · refine Or.inr ⟨z, ds, tail, ⟨h1, h2, h3, h4, h5, h6, ?_⟩, hlast⟩
      rcases h7 with h7 | ⟨k1, k2, k3, k4⟩
      · exact Or.inl h7
      · refine Or.inr ⟨k1, k2, k3, ?_⟩
        rw [hdot] at k4
        exact k4.dot hget (fun h => k2 (by rw [h]; simp))

theorem scan_empty {n : Numeral} (h : scanText n = []) :
    n.sign = none ∧ n.int = [] ∧ n.frac = none := by
  obtain ⟨s, i, f, e⟩ := n
  simp only [scanText, Numeral.mantText, List.append_eq_nil_iff, List.map_eq_nil_iff] at h
  obtain ⟨h1, h2, h3⟩ := h
  refine ⟨?_, h2, ?_⟩
  · cases s with
    | none => rfl
    | some b => cases b <;> simp [signText] at h1
  · cases f with
    | none => rfl
    | some f => simp at h3

theorem step_sign {T : FloatType} {mem : List Nat} {str : Nat} {n : Numeral} {st : PState} {b : Bool}
    (hinv : Inv T.digits10 mem str n st) (hn : scanText n = [])
    (hget : mem[str + st.pos]? = some (if b then '-'.toNat else '+'.toNat)) :
    ∃ st', parseStep T mem str st = .ok st' ∧ Inv T.digits10 mem str { n with sign := some b } st' := by
  have hp : st.pos = 0 := by rw [hinv.pos, hn]; rfl
  have hstop : st.stop = false := by rw [hinv.stop, hp]; rfl
  obtain ⟨h1, h2, h3⟩ := scan_empty hn
  obtain ⟨s, i, f, e⟩ := n
  simp only at h1 h2 h3
  subst h1 h2 h3
  unfold parseStep
  rw [rd_of hget, ok_bind]
  unfold parseSwitch
  rw [if_neg (by cases b <;> decide), if_neg (by cases b <;> decide), if_neg (by cases b <;> decide),
    if_neg (by cases b <;> decide), if_neg (by cases b <;> decide),
    if_pos ⟨by cases b <;> decide, hp⟩, pure_bind']
  refine ⟨_, rfl, ?_⟩
  refine ⟨?_, ?_, ?_, by dsimp only; omega, hinv.dot, rfl, ?_, hinv.special, ?_⟩
  · dsimp only; rw [hp]; cases b <;> simp [scanText, signText, Numeral.mantText]
  · have := hinv.text
    rw [hn] at this
    dsimp only
    rw [this, drop_of_get hget]
    cases b <;> simp [scanText, signText, Numeral.mantText, Nat.add_assoc]
  · dsimp only; rw [hstop, hp]; rfl
  · dsimp only; cases b <;> rfl
  · dsimp only
    rcases hinv.core with ⟨e1, e2, e3, e4, e5, e6, e7⟩ | ⟨z, ds, tail, hN, -⟩
    · exact Or.inl ⟨e1, e2, e3, e4, e5, e6, e7⟩
    · exfalso
      obtain ⟨d, ds', hd, -⟩ := hN.head
      have := hN.split
      simp [allDigits, Numeral.fracDigits, hd] at this

theorem step_end {T : FloatType} {mem : List Nat} {str c : Nat} {n : Numeral} {st : PState}
    (hinv : Inv T.digits10 mem str n st) (hc : Ender n c)
    (hget : mem[str + st.pos]? = some c) :
    parseStep T mem str st = .ok { st with stop := true, pos := st.pos + 1 } := by
  unfold parseStep
  rw [rd_of hget, ok_bind]
  have hd : ¬ ('0'.toNat ≤ c ∧ c ≤ '9'.toNat) := hc.dig
  have hd' : ¬ (48 ≤ c ∧ c ≤ 57) := hd
  have hsl := scanText_length n
  have hss : (signText n.sign).length = if n.sign.isSome then 1 else 0 := by
    cases h : n.sign with
    | none => rfl
    | some b => cases b <;> rfl
  have key : parseSwitch T mem str c st = .ok { st with stop := true } := by
    unfold parseSwitch
    rw [if_neg (by intro h; rw [h] at hd'; exact hd' (by decide)),
      if_neg (by rintro ⟨h1, h2⟩; exact hd' ⟨le_trans (by decide) h1, h2⟩)]
    by_cases h1 : c = '.'.toNat
    · rw [if_pos h1]
      have hdt : st.dotSet = true := by rw [hinv.dot, hc.dot h1]
      rw [hdt]
      cases st
      simp only at hdt
      subst hdt
      rfl
    rw [if_neg h1]
    have hword : (c = 'n'.toNat ∨ c = 'N'.toNat ∨ c = 'i'.toNat ∨ c = 'I'.toNat) →
        ¬ st.pos = (if st.signSet then 1 else 0) := by
      intro h
      rw [hinv.signSet, hinv.pos, hsl, hss]
      rcases hc.word h with h | h
      · have : 0 < (allDigits n).length := by
          rw [List.length_pos_iff]; simp [allDigits, h]
        omega
      · rw [h]; simp only [if_true]; omega
    by_cases h2 : c = 'n'.toNat ∨ c = 'N'.toNat
    · rw [if_pos h2, if_neg (hword (by tauto))]; rfl
    rw [if_neg h2]
    by_cases h3 : c = 'i'.toNat ∨ c = 'I'.toNat
    · rw [if_pos h3, if_neg (hword (by tauto))]; rfl
    rw [if_neg h3, if_neg]
    · rfl
    · rintro ⟨h4, h5⟩
      have := hc.sign h4
      rw [hinv.pos] at h5
      exact this (List.length_eq_zero_iff.mp h5)
  rw [key, ok_bind]
  rfl

/-! ## Special words -/

theorem eatNanLoop_ok {mem : List Nat} : ∀ (fuel cp : Nat), Nul mem cp → mem.length < fuel + cp →
    ∃ q, cp ≤ q ∧ Nul mem q ∧ eatNanLoop mem fuel cp = .ok q := by
  intro fuel
  induction fuel with
  | zero =>
    intro cp h hl
    obtain ⟨z, h1, h2⟩ := h
    obtain ⟨hz, -⟩ := List.getElem?_eq_some_iff.mp h2
    omega
  | succ n ih =>
    intro cp h hl
    obtain ⟨c, hc⟩ := h.get
    unfold eatNanLoop
    rw [rd_of hc, ok_bind]
    split_ifs with hcond
    · obtain ⟨q, h1, h2, h3⟩ := ih (cp + 1) (h.next hc (by
        intro h0; subst h0; revert hcond; decide)) (by omega)
      exact ⟨q, by omega, h2, h3⟩
    · exact ⟨cp, le_refl _, h, rfl⟩

theorem eatNan_ok {mem : List Nat} {i : Nat} (h : Nul mem i) :
    ∃ k, eatNan mem i = .ok k ∧ Nul mem (i + k) := by
  obtain ⟨c0, h0⟩ := h.get
  unfold eatNan
  rw [rd_of h0, ok_bind]
  split_ifs with a0
  · have h1' := h.next h0 (by rintro rfl; revert a0; decide)
    obtain ⟨c1, h1⟩ := h1'.get
    rw [rd_of h1, ok_bind]
    split_ifs with a1
    · have h2' := h1'.next h1 (by rintro rfl; revert a1; decide)
      obtain ⟨c2, h2⟩ := h2'.get
      rw [rd_of h2, ok_bind]
      split_ifs with a2
      · have h3' := h2'.next h2 (by rintro rfl; revert a2; decide)
        obtain ⟨q, g1, g2, g3⟩ := eatNanLoop_ok (mem.length + 1) (i + 3) h3' (by omega)
        rw [g3, ok_bind]
        obtain ⟨c, hc⟩ := g2.get
        rw [rd_of hc, ok_bind]
        split_ifs with a3
        · refine ⟨_, rfl, ?_⟩
          have := g2.next hc (by rintro rfl; revert a3; decide)
          rwa [show i + (q - i + 1) = q + 1 by omega]
        · exact ⟨_, rfl, h2'⟩
      · exact ⟨_, rfl, h2'⟩
    · exact ⟨_, rfl, h⟩
  · exact ⟨_, rfl, h⟩

theorem eatInfLoop_ok {mem : List Nat} : ∀ (suffix : List Nat) (cp : Nat), Nul mem cp → 0 ∉ suffix →
    eatInfLoop mem suffix cp = .ok none ∨
      (eatInfLoop mem suffix cp = .ok (some (cp + suffix.length)) ∧ Nul mem (cp + suffix.length)) := by
  intro suffix
  induction suffix with
  | nil => intro cp h _; exact Or.inr ⟨rfl, h⟩
  | cons x xs ih =>
    intro cp h hx
    obtain ⟨c, hc⟩ := h.get
    unfold eatInfLoop
    rw [rd_of hc, ok_bind]
    split_ifs with a
    · have := ih (cp + 1) (h.next hc (by
        rintro rfl
        exact hx (by rw [← a]; exact List.mem_cons_self))) (fun h => hx (List.mem_cons_of_mem _ h))
      rw [List.length_cons, show cp + (xs.length + 1) = cp + 1 + xs.length by omega]
      exact this
    · exact Or.inl rfl

theorem eatInf_ok {mem : List Nat} {i : Nat} (h : Nul mem i) :
    ∃ k, eatInf mem i = .ok k ∧ Nul mem (i + k) := by
  obtain ⟨c0, h0⟩ := h.get
  unfold eatInf
  rw [rd_of h0, ok_bind]
  split_ifs with a0
  · have h1' := h.next h0 (by rintro rfl; revert a0; decide)
    obtain ⟨c1, h1⟩ := h1'.get
    rw [rd_of h1, ok_bind]
    split_ifs with a1
    · have h2' := h1'.next h1 (by rintro rfl; revert a1; decide)
      obtain ⟨c2, h2⟩ := h2'.get
      rw [rd_of h2, ok_bind]
      split_ifs with a2
      · have h3' := h2'.next h2 (by rintro rfl; revert a2; decide)
        rcases eatInfLoop_ok ['n'.toNat, 'i'.toNat, 't'.toNat, 'y'.toNat] (i + 3) h3' (by decide) with g | ⟨g, g'⟩
        · rw [g, ok_bind]; exact ⟨_, rfl, h2'⟩
        · rw [g, ok_bind]
          refine ⟨_, rfl, ?_⟩
          rwa [show i + (i + 3 + [Char.toNat 'n', Char.toNat 'i', Char.toNat 't', Char.toNat 'y'].length - i) =
            i + 3 + [Char.toNat 'n', Char.toNat 'i', Char.toNat 't', Char.toNat 'y'].length by omega]
      · exact ⟨_, rfl, h2'⟩
    · exact ⟨_, rfl, h⟩
  · exact ⟨_, rfl, h⟩

/-- The scan stops at an `n` or `i` right after the optional sign. -/
structure WordAt (T : FloatType) (mem : List Nat) (str : Nat) (s : Option Bool) (isNan : Bool)
    (eaten : Nat) (st : PState) : Prop where
  inv : Inv T.digits10 mem str ⟨s, [], none, none⟩ st
  char : ∃ c, mem[str + st.pos]? = some c ∧
    (if isNan then c = 'n'.toNat ∨ c = 'N'.toNat else c = 'i'.toNat ∨ c = 'I'.toNat)
  eat : (if isNan then eatNan mem (str + st.pos + 1) else eatInf mem (str + st.pos + 1)) = .ok eaten
  nul : Nul mem (str + st.pos + 1 + eaten)

/-- The state after a word. -/
def wordState (isNan : Bool) (eaten : Nat) (st : PState) : PState :=
  { st with
    pos := st.pos + (eaten + 1) + 1
    special := if eaten ≠ 0 then (if isNan then .nan else .inf) else .no
    stop := true }

theorem step_word {T : FloatType} {mem : List Nat} {str : Nat} {s : Option Bool} {isNan : Bool}
    {eaten : Nat} {st : PState} (h : WordAt T mem str s isNan eaten st) :
    parseStep T mem str st = .ok (wordState isNan eaten st) := by
  obtain ⟨c, hc, hcc⟩ := h.char
  have hpos : st.pos = (if st.signSet then 1 else 0) := by
    rw [h.inv.pos, h.inv.signSet]
    cases s with
    | none => rfl
    | some b => cases b <;> rfl
  have heat := h.eat
  unfold parseStep
  rw [rd_of hc, ok_bind]
  have key : parseSwitch T mem str c st = .ok { st with
        pos := st.pos + (eaten + 1)
        special := if eaten ≠ 0 then (if isNan then .nan else .inf) else .no
        stop := true } := by
    unfold parseSwitch
    cases isNan
    · simp only [Bool.false_eq_true, if_false] at hcc heat
      rw [if_neg (by rcases hcc with rfl | rfl <;> decide), if_neg (by rcases hcc with rfl | rfl <;> decide),
        if_neg (by rcases hcc with rfl | rfl <;> decide), if_neg (by rcases hcc with rfl | rfl <;> decide),
        if_pos hcc, if_pos hpos, heat, ok_bind, h.inv.special]
      rfl
    · simp only [if_true] at hcc heat
      rw [if_neg (by rcases hcc with rfl | rfl <;> decide), if_neg (by rcases hcc with rfl | rfl <;> decide),
        if_neg (by rcases hcc with rfl | rfl <;> decide), if_pos hcc, if_pos hpos, heat, ok_bind,
        h.inv.special]
      rfl
  rw [key, ok_bind]
  rfl

/-! ## The loop -/

/-- How the scan of a NUL-terminated string ends. -/
inductive ScanResult (T : FloatType) (mem : List Nat) (str : Nat) : PState → Prop
  | num (n : Numeral) (st : PState) (c : Nat) : Inv T.digits10 mem str n st → st.pos ≤ 2049 →
      mem[str + st.pos]? = some c → Ender n c →
      ScanResult T mem str { st with stop := true, pos := st.pos + 1 }
  | limit (n : Numeral) (st : PState) : Inv T.digits10 mem str n st → st.pos = 2050 →
      ScanResult T mem str st
  | word (s : Option Bool) (isNan : Bool) (eaten : Nat) (st : PState) :
      WordAt T mem str s isNan eaten st → ScanResult T mem str (wordState isNan eaten st)

theorem addDigit_exp (n : Numeral) (d : Fin 10) : (addDigit n d).exp = n.exp := by
  obtain ⟨s, i, f, e⟩ := n
  cases f <;> rfl

theorem loop_stop (T : FloatType) (mem : List Nat) (str fuel : Nat) (st : PState) (h : st.stop = true)
    (hf : 0 < fuel) : parseLoop T mem str fuel st = .ok st := by
  obtain ⟨f, rfl⟩ : ∃ f, fuel = f + 1 := ⟨fuel - 1, by omega⟩
  unfold parseLoop
  rw [h]; rfl

theorem loop_step {T : FloatType} {mem : List Nat} {str fuel : Nat} {st st' : PState}
    (h : st.stop = false) (hs : parseStep T mem str st = .ok st') :
    parseLoop T mem str (fuel + 1) st = parseLoop T mem str fuel st' := by
  conv_lhs => unfold parseLoop
  rw [h, hs, ok_bind]; rfl

/-- Every NUL-terminated string can be scanned. -/
theorem loop_total {T : FloatType} {mem : List Nat} {str : Nat} :
    ∀ (fuel : Nat) (n : Numeral) (st : PState), Inv T.digits10 mem str n st → n.exp = none →
      Nul mem (str + st.pos) ∨ st.pos = 2050 → 2051 ≤ fuel + st.pos →
      ∃ st', parseLoop T mem str fuel st = .ok st' ∧ ScanResult T mem str st' := by
  intro fuel
  induction fuel with
  | zero => intro n st hinv _ _ hf; have := hinv.bound; omega
  | succ fuel ih =>
    intro n st hinv hexp hnul hf
    by_cases hp : st.pos = 2050
    · have hstop : st.stop = true := by rw [hinv.stop, hp]; rfl
      exact ⟨st, loop_stop T mem str _ st hstop (by omega), .limit n st hinv hp⟩
    have hp' : st.pos ≤ 2049 := by have := hinv.bound; omega
    have hnul : Nul mem (str + st.pos) := by
      rcases hnul with h | h
      · exact h
      · exact absurd h hp
    have hstop : st.stop = false := by rw [hinv.stop]; simp; omega
    obtain ⟨c, hc⟩ := hnul.get
    -- continue after a successful non-final step
    have cont : ∀ (n' : Numeral) (st' : PState), c ≠ 0 → n'.exp = none →
        parseStep T mem str st = .ok st' → Inv T.digits10 mem str n' st' → st'.pos = st.pos + 1 →
        ∃ st'', parseLoop T mem str (fuel + 1) st = .ok st'' ∧ ScanResult T mem str st'' := by
      intro n' st' hc0 he hs hi hpp
      rw [loop_step hstop hs]
      refine ih n' st' hi he (Or.inl ?_) (by omega)
      rw [hpp]
      exact hnul.next hc hc0
    by_cases hd : IsDig c
    · obtain ⟨d, rfl⟩ := isDig_iff.mp hd
      obtain ⟨st', h1, h2⟩ := step_digit hinv hp' hc hnul.stops
      refine cont _ st' ?_ (by rw [addDigit_exp, hexp]) h1 h2 ?_
      · unfold digitChar; show 48 + d.val ≠ 0; omega
      · rw [h2.pos, scanText_add, hinv.pos]; simp
    by_cases hdot : c = '.'.toNat ∧ n.frac = none
    · obtain ⟨rfl, hn⟩ := hdot
      obtain ⟨st', h1, h2⟩ := step_dot hinv hp' hn hc
      refine cont (addDot n) st' (by decide) hexp h1 h2 ?_
      rw [h2.pos, hinv.pos]
      obtain ⟨s, i, f, e⟩ := n
      simp only at hn; subst hn
      simp [scanText, addDot, Numeral.mantText]; omega
    by_cases hsg : (c = '-'.toNat ∨ c = '+'.toNat) ∧ scanText n = []
    · obtain ⟨h1, h2⟩ := hsg
      have hc' : mem[str + st.pos]? = some (if decide (c = '-'.toNat) then '-'.toNat else '+'.toNat) := by
        rw [hc]
        rcases h1 with rfl | rfl <;> rfl
      obtain ⟨st', h3, h4⟩ := step_sign hinv h2 hc'
      refine cont { n with sign := some _ } st' (by rcases h1 with rfl | rfl <;> decide) hexp h3 h4 ?_
      rw [h4.pos, hinv.pos, h2]
      obtain ⟨g1, g2, g3⟩ := scan_empty h2
      simp only [scanText, Numeral.mantText, g2, g3]
      cases (decide (c = '-'.toNat)) <;> rfl
    by_cases hw : (c = 'n'.toNat ∨ c = 'N'.toNat ∨ c = 'i'.toNat ∨ c = 'I'.toNat) ∧ n.int = [] ∧ n.frac = none
    · obtain ⟨h1, h2, h3⟩ := hw
      obtain ⟨s, i, f, e⟩ := n
      simp only at h2 h3 hexp
      subst h2 h3 hexp
      have hc0 : c ≠ 0 := by rcases h1 with rfl | rfl | rfl | rfl <;> decide
      have hn' : Nul mem (str + st.pos + 1) := hnul.next hc hc0
      have : ∃ isNan eaten, WordAt T mem str s isNan eaten st := by
        rcases h1 with h | h | h | h
        · obtain ⟨k, e1, e2⟩ := eatNan_ok hn'
          exact ⟨true, k, hinv, ⟨c, hc, by simp only [if_true]; tauto⟩, by simpa using e1, e2⟩
        · obtain ⟨k, e1, e2⟩ := eatNan_ok hn'
          exact ⟨true, k, hinv, ⟨c, hc, by simp only [if_true]; tauto⟩, by simpa using e1, e2⟩
        · obtain ⟨k, e1, e2⟩ := eatInf_ok hn'
          exact ⟨false, k, hinv, ⟨c, hc, by simp only [Bool.false_eq_true, if_false]; tauto⟩, by simpa using e1, e2⟩
        · obtain ⟨k, e1, e2⟩ := eatInf_ok hn'
          exact ⟨false, k, hinv, ⟨c, hc, by simp only [Bool.false_eq_true, if_false]; tauto⟩, by simpa using e1, e2⟩
      obtain ⟨isNan, eaten, hW⟩ := this
      rw [loop_step hstop (step_word hW), loop_stop T mem str fuel _ rfl (by omega)]
      exact ⟨_, rfl, .word s isNan eaten st hW⟩
    · have hend : Ender n c := by
        refine ⟨hd, ?_, ?_, ?_⟩
        · intro h
          cases hf : n.frac with
          | none => exact absurd ⟨h, hf⟩ hdot
          | some f => rfl
        · intro h h'; exact hsg ⟨h, h'⟩
        · intro h
          by_cases hi : n.int = []
          · right
            cases hf : n.frac with
            | none => exact absurd ⟨h, hi, hf⟩ hw
            | some f => rfl
          · exact Or.inl hi
      rw [loop_step hstop (step_end hinv hend hc), loop_stop T mem str fuel _ rfl (by omega)]
      exact ⟨_, rfl, .num n st c hinv hp' hc hend⟩

/-! ## Running over a given numeral -/

theorem run_digits {T : FloatType} {mem : List Nat} {str : Nat} :
    ∀ (ds : List (Fin 10)) (n : Numeral) (st : PState) (c : Nat) (R : List Nat),
      Inv T.digits10 mem str n st →
      mem.drop (str + st.pos) = ds.map digitChar ++ c :: R → ¬ IsDig c →
      st.pos + ds.length ≤ 2050 →
      ∃ st', (∀ fuel, parseLoop T mem str (fuel + ds.length) st = parseLoop T mem str fuel st') ∧
        Inv T.digits10 mem str (ds.foldl addDigit n) st' ∧ st'.pos = st.pos + ds.length := by
  intro ds
  induction ds with
  | nil => intro n st c R hinv _ _ _; exact ⟨st, fun _ => rfl, hinv, rfl⟩
  | cons d ds ih =>
    intro n st c R hinv hm hc hl
    rw [List.length_cons] at hl
    have hstop : st.stop = false := by rw [hinv.stop]; simp; omega
    have hget := get_of_drop (c := digitChar d) hm
    have hst : Stops mem (str + st.pos) := by
      refine ⟨str + st.pos + (ds.length + 1), c, by omega, ?_, hc⟩
      have h0 : (mem.drop (str + st.pos))[ds.length + 1]? = some c := by
        rw [hm, List.getElem?_append_right (by simp)]; simp
      rwa [List.getElem?_drop] at h0
    obtain ⟨st1, h1, h2⟩ := step_digit hinv (by omega) hget hst
    have hp1 : st1.pos = st.pos + 1 := by rw [h2.pos, scanText_add, hinv.pos]; simp
    have hm' : mem.drop (str + st1.pos) = ds.map digitChar ++ c :: R := by
      have := drop_of_get hget
      rw [hm, List.map_cons, List.cons_append, List.cons.injEq] at this
      rw [hp1, ← Nat.add_assoc, ← this.2]
    obtain ⟨st', h3, h4, h5⟩ := ih _ st1 c R h2 hm' hc (by omega)
    refine ⟨st', ?_, h4, by rw [h5, hp1, List.length_cons]; omega⟩
    intro fuel
    rw [List.length_cons, ← Nat.add_assoc, loop_step hstop h1, h3]

theorem foldl_int (ds : List (Fin 10)) : ∀ (s : Option Bool) (i : List (Fin 10)) (e : Option ExpPart),
    ds.foldl addDigit ⟨s, i, none, e⟩ = ⟨s, i ++ ds, none, e⟩ := by
  induction ds with
  | nil => intro s i e; simp
  | cons d ds ih => intro s i e; simp [addDigit, ih]

theorem foldl_frac (ds : List (Fin 10)) : ∀ (s : Option Bool) (i f : List (Fin 10)) (e : Option ExpPart),
    ds.foldl addDigit ⟨s, i, some f, e⟩ = ⟨s, i, some (f ++ ds), e⟩ := by
  induction ds with
  | nil => intro s i f e; simp
  | cons d ds ih => intro s i f e; simp [addDigit, ih]

/-- The numeral without its exponent part. -/
def noExp (n : Numeral) : Numeral := { n with exp := none }

theorem scanText_noExp (n : Numeral) : scanText (noExp n) = scanText n := rfl

theorem ender_noExp {n : Numeral} {c : Nat} (h : Ender n c) : Ender (noExp n) c := ⟨h.1, h.2, h.3, h.4⟩

/-- Scanning the text of a numeral followed by a character that ends it. -/
theorem scan_num {T : FloatType} {mem : List Nat} {str : Nat} {n : Numeral} {c : Nat} {R : List Nat}
    (hm : mem.drop str = scanText n ++ c :: R) (hc : Ender n c) (hl : (scanText n).length ≤ 2049) :
    ∃ st, Inv T.digits10 mem str (noExp n) st ∧ st.pos ≤ 2049 ∧ mem[str + st.pos]? = some c ∧
      parseLoop T mem str (maximumOffset + 3) PState.init =
        .ok { st with stop := true, pos := st.pos + 1 } := by
  have h0 := inv_init T.digits10 mem str
  -- the sign
  have hsign : ∃ st1, Inv T.digits10 mem str ⟨n.sign, [], none, none⟩ st1 ∧
      (∀ fuel, parseLoop T mem str (fuel + (signText n.sign).length) PState.init =
        parseLoop T mem str fuel st1) := by
    obtain ⟨s, i, f, e⟩ := n
    cases s with
    | none => exact ⟨_, h0, fun fuel => rfl⟩
    | some b =>
      have hget : mem[str + PState.init.pos]? = some (if b then '-'.toNat else '+'.toNat) := by
        apply get_of_drop (r := (⟨none, i, f, e⟩ : Numeral).mantText ++ c :: R)
        show mem.drop str = _
        rw [hm]
        cases b <;> simp [scanText, signText, Numeral.mantText]
      obtain ⟨st1, h1, h2⟩ := step_sign h0 rfl hget
      refine ⟨st1, h2, fun fuel => ?_⟩
      have : (signText (some b)).length = 1 := by cases b <;> rfl
      dsimp only
      rw [this]
      exact loop_step rfl h1
  obtain ⟨st1, i1, l1⟩ := hsign
  have p1 := i1.pos
  have hs1 : (scanText ⟨n.sign, [], none, none⟩).length = (signText n.sign).length := by
    simp [scanText, Numeral.mantText]
  rw [hs1] at p1
  have hlen := scanText_length n
  have hint : ∃ c' R', ¬ IsDig c' ∧ mem.drop (str + st1.pos) = n.int.map digitChar ++ c' :: R' ∧
      (∀ f, n.frac = some f → c' = '.'.toNat ∧ R' = f.map digitChar ++ c :: R) ∧
      (n.frac = none → c' = c) := by
    rw [← List.drop_drop, hm, p1]
    obtain ⟨s, i, f, e⟩ := n
    simp only [scanText, Numeral.mantText, List.append_assoc, List.drop_left]
    cases f with
    | none => exact ⟨c, R, hc.dig, by simp, by simp, by simp⟩
    | some f =>
      refine ⟨'.'.toNat, f.map digitChar ++ c :: R, by unfold IsDig; decide, by simp, ?_, by simp⟩
      intro f' hf
      simp only [Option.some.injEq] at hf
      subst hf
      exact ⟨rfl, rfl⟩
  obtain ⟨c', R', hc', hm1, hf1, hf2⟩ := hint
  have hdl : (allDigits n).length = n.int.length + n.fracDigits.length := by simp [allDigits]
  have hbig : (signText n.sign).length + n.int.length ≤ 2049 := by omega
  obtain ⟨st2, l2, i2, p2⟩ := run_digits n.int _ st1 c' R' i1 hm1 hc' (by omega)
  rw [foldl_int, List.nil_append] at i2
  have fin : ∃ st, Inv T.digits10 mem str (noExp n) st ∧
      (∀ fuel, parseLoop T mem str (fuel + (scanText n).length) PState.init =
        parseLoop T mem str fuel st) := by
    cases hfr : n.frac with
    | none =>
      have : noExp n = ⟨n.sign, n.int, none, none⟩ := by unfold noExp; rw [hfr]
      rw [this]
      refine ⟨st2, i2, fun fuel => ?_⟩
      have hF : n.fracDigits.length = 0 := by simp [Numeral.fracDigits, hfr]
      rw [hlen, hfr, hdl, hF, show fuel + ((signText n.sign).length + (n.int.length + 0) +
        if (none : Option (List (Fin 10))).isSome = true then 1 else 0) =
        (fuel + n.int.length) + (signText n.sign).length by simp; omega, l1, l2]
    | some f =>
      obtain ⟨rfl, rfl⟩ := hf1 f hfr
      have hF : n.fracDigits.length = f.length := by simp [Numeral.fracDigits, hfr]
      have htot : (scanText n).length = (signText n.sign).length + (n.int.length + f.length) + 1 := by
        rw [hlen, hdl, hF, hfr]; simp
      have hm2 : mem.drop (str + st2.pos) = '.'.toNat :: (f.map digitChar ++ c :: R) := by
        rw [p2, ← Nat.add_assoc, ← List.drop_drop, hm1, List.drop_append_of_le_length (by simp)]
        rw [List.drop_eq_nil_of_le (by simp)]; rfl
      have hget2 := get_of_drop hm2
      obtain ⟨st3, s3, i3⟩ := step_dot i2 (by omega) rfl hget2
      have hstop2 : st2.stop = false := by rw [i2.stop]; simp; omega
      have p3 : st3.pos = st2.pos + 1 := by
        rw [i3.pos, i2.pos]; simp [scanText, addDot, Numeral.mantText]; omega
      have hm3 : mem.drop (str + st3.pos) = f.map digitChar ++ c :: R := by
        have := drop_of_get hget2
        rw [hm2, List.cons.injEq] at this
        rw [p3, ← Nat.add_assoc, ← this.2]
      obtain ⟨st4, l4, i4, p4⟩ := run_digits f _ st3 c R i3 hm3 hc.dig (by omega)
      rw [addDot, foldl_frac, List.nil_append] at i4
      have : noExp n = ⟨n.sign, n.int, some f, none⟩ := by unfold noExp; rw [hfr]
      rw [this]
      refine ⟨st4, i4, fun fuel => ?_⟩
      rw [htot, show fuel + ((signText n.sign).length + (n.int.length + f.length) + 1) =
        (fuel + f.length + 1 + n.int.length) + (signText n.sign).length by omega, l1, l2,
        loop_step hstop2 s3, l4]
  obtain ⟨st, hi, hloop⟩ := fin
  have hpos := hi.pos
  rw [scanText_noExp] at hpos
  have hget : mem[str + st.pos]? = some c := by
    apply get_of_drop (r := R)
    rw [← List.drop_drop, hm, hpos, List.drop_left]
  refine ⟨st, hi, by omega, hget, ?_⟩
  have hstop : st.stop = false := by rw [hi.stop]; simp; omega
  rw [show maximumOffset + 3 = ((2051 - (scanText n).length - 1) + 1) + (scanText n).length by
    unfold maximumOffset; omega, hloop, loop_step hstop (step_end hi (ender_noExp hc) hget)]
  exact loop_stop T mem str _ _ rfl (by omega)

end Floaxie
