import Verif.Model.SizeT
import Verif.Proof.Cut

/-!
# The width of `std::size_t` does not matter to the parser
-/

namespace Floaxie

open FloatType

set_option linter.unusedSectionVars false

variable [L : Locale] {mem : List Nat}

theorem two_pow_sz {sz : Nat} (h : 32 ≤ sz) : 2 ^ 32 ≤ 2 ^ sz := Nat.pow_le_pow_right (by norm_num) h

theorem addW_eq {sz a b : Nat} (h : a + b < 2 ^ sz) : addW sz a b = a + b := Nat.mod_eq_of_lt h

theorem subW_eq {sz a b : Nat} (h : b ≤ a) (h2 : a < 2 ^ sz) : subW sz a b = a - b := by
  unfold subW
  rw [show a + 2 ^ sz - b = a - b + 2 ^ sz by omega, Nat.add_mod_right, Nat.mod_eq_of_lt (by omega)]

theorem subSz_le {a b : Nat} (h : b ≤ a) (h2 : a < 2 ^ 64) : subSz a b = a - b := subW_eq (sz := 64) h h2

/-- What holds before each step of the loop that scans the digits. -/
structure ScanInv (kappa : Nat) (st : PState) : Prop where
  zero : st.zeroLen ≤ st.pos
  gain : st.powGain ≤ st.pos
  frac : st.fracCount ≤ st.pos
  dig : st.digits.length ≤ kappa
  pend : st.digits.length < kappa → st.powGain ≤ st.zeroLen ∧ st.fracCount + st.zeroLen ≤ st.pos
  run : st.stop = false → st.pos ≤ 2049
  moved : st.stop = true → 1 ≤ st.pos
  small : st.powGain ≤ 2050 ∧ st.fracCount ≤ 2050

theorem ScanInv.init (kappa : Nat) : ScanInv kappa PState.init := by
  constructor <;> simp [PState.init]

theorem stepZero_same {sz kappa : Nat} {st : PState} (hsz : 32 ≤ sz) (h : ScanInv kappa st) (hp : st.pos ≤ 2049) :
    stepZeroW sz st = stepZero st := by
  have := two_pow_sz hsz
  have := h.zero
  have := h.gain
  unfold stepZeroW stepZero
  have hb : (if st.dotSet = true then 0 else 1) ≤ 1 := by split_ifs <;> omega
  rw [addW_eq (show st.powGain + _ < 2 ^ sz by omega), addW_eq (show st.zeroLen + 1 < 2 ^ sz by omega)]

theorem flush_same {sz kappa : Nat} {st : PState} (hsz : 32 ≤ sz) (hk : kappa ≤ 19) (h : ScanInv kappa st)
    (hp : st.pos ≤ 2049) : flushZerosW sz kappa st = flushZeros kappa st := by
  have := two_pow_sz hsz
  have := h.zero
  have := h.gain
  have := h.frac
  unfold flushZerosW flushZeros
  by_cases hc : st.zeroLen ≠ 0 ∧ st.digits.length < kappa
  · rw [if_pos hc, if_pos hc]
    obtain ⟨q1, q2⟩ := h.pend hc.2
    rw [subW_eq hc.2.le (by omega), subSz_le hc.2.le (by omega)]
    generalize hz : (if (!st.digits.isEmpty) = true then min st.zeroLen (kappa - st.digits.length) else st.zeroLen) = z
    generalize hg : (if (!st.digits.isEmpty) = true then min st.powGain (kappa - st.digits.length) else st.powGain) = g
    have h1 : g ≤ z ∧ z ≤ st.zeroLen ∧ g ≤ st.powGain := by
      rw [← hz, ← hg]; split_ifs <;> omega
    obtain ⟨h1, h2, h3⟩ := h1
    dsimp only
    rw [hz, hg, subW_eq h1 (by omega), subW_eq h2 (by omega), subW_eq h3 (by omega), subSz_le h1 (by omega),
      subSz_le h2 (by omega), subSz_le h3 (by omega), addW_eq (by omega), Nat.mod_eq_of_lt (by omega)]
  · rw [if_neg hc, if_neg hc]

/-- What `flushZeros` leaves alone, and what it guarantees. -/
theorem flush_inv {kappa : Nat} {st : PState} (hk : kappa ≤ 19) (h : ScanInv kappa st) (hp : st.pos ≤ 2049) :
    (flushZeros kappa st).pos = st.pos ∧ (flushZeros kappa st).stop = st.stop ∧
    (flushZeros kappa st).dotSet = st.dotSet ∧
    (flushZeros kappa st).zeroLen ≤ st.pos ∧ (flushZeros kappa st).powGain ≤ st.pos ∧
    (flushZeros kappa st).fracCount ≤ st.pos ∧ (flushZeros kappa st).digits.length ≤ kappa ∧
    ((flushZeros kappa st).digits.length < kappa →
      (flushZeros kappa st).powGain = 0 ∧ (flushZeros kappa st).zeroLen = 0) := by
  have := h.zero
  have := h.gain
  have := h.frac
  have := h.dig
  unfold flushZeros
  by_cases hc : st.zeroLen ≠ 0 ∧ st.digits.length < kappa
  · rw [if_pos hc]
    obtain ⟨q1, q2⟩ := h.pend hc.2
    rw [subSz_le hc.2.le (by omega)]
    by_cases he : st.digits.isEmpty = true
    · simp only [he, Bool.not_true, Bool.false_eq_true, ↓reduceIte]
      rw [subSz_le q1 (by omega), subSz_le (le_refl _) (by omega), subSz_le (le_refl _) (by omega),
        Nat.mod_eq_of_lt (by omega)]
      refine ⟨trivial, trivial, trivial, by omega, by omega, by omega, by omega, fun _ => ⟨by omega, by omega⟩⟩
    · simp only [he, Bool.not_false, ↓reduceIte, List.length_append, List.length_replicate]
      rw [subSz_le (show min st.powGain (kappa - st.digits.length) ≤ min st.zeroLen (kappa - st.digits.length) by omega)
        (by omega), subSz_le (min_le_left _ _) (by omega), subSz_le (min_le_left _ _) (by omega),
        Nat.mod_eq_of_lt (by omega)]
      refine ⟨trivial, trivial, trivial, by omega, by omega, by omega, by omega, fun _ => ⟨by omega, by omega⟩⟩
  · rw [if_neg hc]
    refine ⟨rfl, rfl, rfl, by omega, by omega, by omega, by omega, fun hl => ?_⟩
    obtain ⟨q1, q2⟩ := h.pend hl
    have : st.zeroLen = 0 := by
      by_contra h0; exact hc ⟨h0, hl⟩
    omega

theorem digit_same {sz kappa str c : Nat} {st : PState} (hsz : 32 ≤ sz) (hk : kappa ≤ 19) (h : ScanInv kappa st)
    (hp : st.pos ≤ 2049) (hs : st.stop = false) :
    pushDigitW sz mem str kappa c (flushZerosW sz kappa st) = pushDigit mem str kappa c (flushZeros kappa st) ∧
    ∀ st', pushDigit mem str kappa c (flushZeros kappa st) = .ok st' →
      st'.pos = st.pos ∧ st'.stop = false ∧ st'.zeroLen ≤ st.pos ∧ st'.powGain ≤ st.pos + 1 ∧
      st'.fracCount ≤ st.pos + 1 ∧ st'.digits.length ≤ kappa ∧
      (st'.digits.length < kappa → st'.powGain ≤ st'.zeroLen ∧ st'.fracCount + st'.zeroLen ≤ st.pos + 1) := by
  rw [flush_same hsz hk h hp]
  obtain ⟨f1, f2, f3, f4, f5, f6, f7, f8⟩ := flush_inv hk h hp
  generalize flushZeros kappa st = s at *
  have := two_pow_sz hsz
  unfold pushDigitW pushDigit
  by_cases hl : s.digits.length < kappa
  · rw [if_pos hl, if_pos hl]
    have hf := f8 hl
    have hb : (if s.dotSet = true then 1 else 0) ≤ 1 := by split_ifs <;> omega
    refine ⟨by rw [addW_eq (by split_ifs <;> omega)], ?_⟩
    intro st' e
    obtain rfl := Except.ok.inj e
    simp only [List.length_append, List.length_singleton]
    generalize (if s.dotSet = true then 1 else 0) = b at *
    exact ⟨f1, by rw [f2, hs], by omega, by omega, by omega, by omega, fun _ => ⟨by omega, by omega⟩⟩
  · rw [if_neg hl, if_neg hl]
    have hb : (if s.dotSet = true then 0 else 1) ≤ 1 := by split_ifs <;> omega
    have hsuf : subW sz (addW sz s.digits.length s.zeroLen) kappa = subSz (s.digits.length + s.zeroLen) kappa := by
      rw [addW_eq (by omega), subW_eq (by omega) (by omega), subSz_le (by omega) (by omega)]
    rw [hsuf]
    constructor
    · cases hfc : s.fracCalculated
      · simp only [Bool.not_false, if_true]
        split_ifs with h1
        · rfl
        · cases extractFractionDigits mem fractionDecimalDigits
            (str + s.pos - subSz (s.digits.length + s.zeroLen) kappa) with
          | error e => rfl
          | ok v =>
            show Except.ok _ = Except.ok _
            dsimp only
            rw [addW_eq (by split_ifs <;> omega)]
      · simp only [Bool.not_true, Bool.false_eq_true, if_false]
        show Except.ok _ = Except.ok _
        rw [addW_eq (by split_ifs <;> omega)]
    · intro st' e
      have key : ∃ s' : PState, s'.pos = s.pos ∧ s'.stop = s.stop ∧ s'.zeroLen = s.zeroLen ∧ s'.powGain = s.powGain ∧
          s'.fracCount = s.fracCount ∧ s'.digits = s.digits ∧ s'.dotSet = s.dotSet ∧
          st' = { s' with powGain := s'.powGain + (if s'.dotSet then 0 else 1) } := by
        cases hfc : s.fracCalculated
        · simp only [hfc, Bool.not_false, if_true] at e
          split_ifs at e with h1
          · cases e
          · cases hx : extractFractionDigits mem fractionDecimalDigits
              (str + s.pos - subSz (s.digits.length + s.zeroLen) kappa) with
            | error e' => rw [hx] at e; cases e
            | ok v =>
              rw [hx] at e
              exact ⟨{ s with
                frac := convertNumerator fractionDecimalDigits fractionBinaryDigits v % 256
                fracCalculated := true }, rfl, rfl, rfl, rfl, rfl, rfl, rfl, (Except.ok.inj e).symm⟩
        · simp only [hfc, Bool.not_true, Bool.false_eq_true, if_false] at e
          exact ⟨s, rfl, rfl, rfl, rfl, rfl, rfl, rfl, (Except.ok.inj e).symm⟩
      obtain ⟨s', k1, k2, k3, k4, k5, k6, k7, rfl⟩ := key
      dsimp only
      rw [k1, k2, k3, k4, k5, k6, k7]
      generalize (if s.dotSet = true then 0 else 1) = b at *
      exact ⟨f1, by rw [f2, hs], by omega, by omega, by omega, by omega, fun h => absurd h hl⟩

theorem eatNan_le {i k : Nat} (h : eatNan mem i = .ok k) : i + k ≤ mem.length := by
  unfold eatNan at h
  obtain ⟨c0, h0, h⟩ := bind_ok h
  have l0 := (List.getElem?_eq_some_iff.1 (rd_eq_ok.1 h0)).1
  split_ifs at h with hc0
  · obtain ⟨c1, h1, h⟩ := bind_ok h
    have l1 := (List.getElem?_eq_some_iff.1 (rd_eq_ok.1 h1)).1
    split_ifs at h with hc1
    · obtain ⟨c2, h2, h⟩ := bind_ok h
      split_ifs at h with hc2
      · obtain ⟨q, h3, h⟩ := bind_ok h
        have hq := (eatNanLoop_cut (mem' := mem) _ (q + 1) _ _ h3 (fun _ _ => rfl) (by omega)).2
        obtain ⟨c, h4, h⟩ := bind_ok h
        have l4 := (List.getElem?_eq_some_iff.1 (rd_eq_ok.1 h4)).1
        split_ifs at h with hc
        · have := Except.ok.inj h; omega
        · have := Except.ok.inj h; omega
      · have := Except.ok.inj h; omega
    · have := Except.ok.inj h; omega
  · have := Except.ok.inj h; omega

theorem eatInfLoop_le : ∀ (xs : List Nat) (cp q : Nat), eatInfLoop mem xs cp = .ok (some q) → cp ≤ mem.length →
    q ≤ mem.length
  | [], cp, q, h, hc => by
    have := Option.some.inj (Except.ok.inj h); omega
  | x :: xs, cp, q, h, hc => by
    unfold eatInfLoop at h
    obtain ⟨c, h1, h⟩ := bind_ok h
    have l1 := (List.getElem?_eq_some_iff.1 (rd_eq_ok.1 h1)).1
    split_ifs at h with hx
    · exact eatInfLoop_le xs (cp + 1) q h (by omega)
    · cases h

theorem eatInf_le {i k : Nat} (h : eatInf mem i = .ok k) : i + k ≤ mem.length := by
  unfold eatInf at h
  obtain ⟨c0, h0, h⟩ := bind_ok h
  have l0 := (List.getElem?_eq_some_iff.1 (rd_eq_ok.1 h0)).1
  split_ifs at h with hc0
  · obtain ⟨c1, h1, h⟩ := bind_ok h
    have l1 := (List.getElem?_eq_some_iff.1 (rd_eq_ok.1 h1)).1
    split_ifs at h with hc1
    · obtain ⟨c2, h2, h⟩ := bind_ok h
      have l2 := (List.getElem?_eq_some_iff.1 (rd_eq_ok.1 h2)).1
      split_ifs at h with hc2
      · obtain ⟨o, h3, h⟩ := bind_ok h
        cases o with
        | none => have := Except.ok.inj h; omega
        | some q =>
          have hq := eatInfLoop_le _ _ _ h3 (by omega)
          have := Except.ok.inj h; omega
      · have := Except.ok.inj h; omega
    · have := Except.ok.inj h; omega
  · have := Except.ok.inj h; omega

/-- What the `switch` leaves behind when it is entered at position `pos`. -/
structure SwitchInv (kappa pos len : Nat) (s : PState) : Prop where
  zero : s.zeroLen ≤ s.pos + 1
  gain : s.powGain ≤ s.pos + 1
  frac : s.fracCount ≤ s.pos + 1
  dig : s.digits.length ≤ kappa
  pend : s.digits.length < kappa → s.powGain ≤ s.zeroLen ∧ s.fracCount + s.zeroLen ≤ s.pos + 1
  run : s.stop = false → s.pos = pos
  le : s.pos ≤ pos ∨ s.pos ≤ len
  small : s.powGain ≤ pos + 1 ∧ s.fracCount ≤ pos + 1

theorem ScanInv.switch {kappa len : Nat} {st s : PState} (h : ScanInv kappa st) (h1 : s.zeroLen = st.zeroLen)
    (h2 : s.powGain = st.powGain) (h3 : s.fracCount = st.fracCount) (h4 : s.digits = st.digits)
    (h5 : s.pos = st.pos ∨ (s.stop = true ∧ st.pos ≤ s.pos ∧ s.pos ≤ len)) : SwitchInv kappa st.pos len s := by
  obtain ⟨a1, a2, a3, a4, a5, -, -, -⟩ := h
  have hz : s.powGain ≤ st.pos + 1 ∧ s.fracCount ≤ st.pos + 1 := by omega
  rw [← h1] at a1
  rw [← h2] at a2
  rw [← h3] at a3
  rw [← h4] at a4
  rw [← h1, ← h2, ← h3, ← h4] at a5
  refine ⟨by omega, by omega, by omega, a4, fun hl => ?_, fun hst => ?_, by omega, hz⟩
  · have := a5 hl; omega
  · rcases h5 with h5 | ⟨h5, -⟩
    · exact h5
    · rw [hst] at h5; cases h5

theorem switch_same {sz : Nat} {T : FloatType} {str c : Nat} {st : PState} (hsz : 32 ≤ sz)
    (hmem : mem.length < 2 ^ (sz - 1)) (h : ScanInv T.digits10 st) (hs : st.stop = false) :
    parseSwitchW sz T mem str c st = parseSwitch T mem str c st ∧
    ∀ s, parseSwitch T mem str c st = .ok s → SwitchInv T.digits10 st.pos mem.length s := by
  have hp := h.run hs
  have hk : T.digits10 ≤ 19 := by cases T <;> decide
  have hsz2 : 2 ^ sz = 2 * 2 ^ (sz - 1) := by rw [← pow_succ']; congr 1; omega
  have h32 := two_pow_sz hsz
  have stop : ∀ s, (pure { st with stop := true } : M PState) = .ok s → SwitchInv T.digits10 st.pos mem.length s := by
    intro s e
    obtain rfl := Except.ok.inj e
    exact h.switch rfl rfl rfl rfl (Or.inl rfl)
  unfold parseSwitchW parseSwitch
  by_cases c0 : c = '0'.toNat
  · rw [if_pos c0, if_pos c0, stepZero_same hsz h hp]
    refine ⟨rfl, fun s e => ?_⟩
    obtain rfl := Except.ok.inj e
    have hz := h.zero
    have hg := h.gain
    have hf := h.frac
    unfold stepZero
    by_cases q : (!st.digits.isEmpty || st.dotSet) = true
    · rw [if_pos q]
      have hb : (if st.dotSet = true then 0 else 1) ≤ 1 := by split_ifs <;> omega
      generalize (if st.dotSet = true then 0 else 1) = b at *
      refine ⟨?_, ?_, ?_, h.dig, fun hl => ?_, fun _ => rfl, Or.inl (le_refl _), ?_⟩
      · show st.zeroLen + 1 ≤ st.pos + 1; omega
      · show st.powGain + b ≤ st.pos + 1; omega
      · show st.fracCount ≤ st.pos + 1; omega
      · obtain ⟨p1, p2⟩ := h.pend hl
        show st.powGain + b ≤ st.zeroLen + 1 ∧ st.fracCount + (st.zeroLen + 1) ≤ st.pos + 1
        omega
      · show st.powGain + b ≤ st.pos + 1 ∧ st.fracCount ≤ st.pos + 1
        omega
    · rw [if_neg q]
      exact h.switch rfl rfl rfl rfl (Or.inl rfl)
  rw [if_neg c0, if_neg c0]
  by_cases c1 : '1'.toNat ≤ c ∧ c ≤ '9'.toNat
  · rw [if_pos c1, if_pos c1]
    obtain ⟨d1, d2⟩ := digit_same (mem := mem) (str := str) (c := c) hsz hk h hp hs
    refine ⟨d1, fun s e => ?_⟩
    obtain ⟨g1, g2, g3, g4, g5, g6, g7⟩ := d2 s e
    exact ⟨by omega, by omega, by omega, g6, fun hl => by have := g7 hl; omega, fun _ => g1, by omega, by omega⟩
  rw [if_neg c1, if_neg c1]
  by_cases c2 : c = '.'.toNat
  · rw [if_pos c2, if_pos c2]
    refine ⟨rfl, fun s e => ?_⟩
    obtain rfl := Except.ok.inj e
    exact h.switch rfl rfl rfl rfl (Or.inl rfl)
  rw [if_neg c2, if_neg c2]
  by_cases c3 : c = 'n'.toNat ∨ c = 'N'.toNat
  · rw [if_pos c3, if_pos c3]
    by_cases hq : st.pos = (if st.signSet = true then 1 else 0)
    · rw [if_pos hq, if_pos hq]
      cases he : eatNan mem (str + st.pos + 1) with
      | error e => exact ⟨rfl, fun s e => by cases e⟩
      | ok k =>
        have hle := eatNan_le he
        constructor
        · show Except.ok _ = Except.ok _
          rw [addW_eq (show k + 1 < _ by omega), addW_eq (by omega)]
        · intro s e
          obtain rfl := Except.ok.inj e
          refine h.switch rfl rfl rfl rfl (Or.inr ⟨rfl, ?_, ?_⟩)
          · show st.pos ≤ st.pos + (k + 1); omega
          · show st.pos + (k + 1) ≤ _; omega
    · rw [if_neg hq, if_neg hq]
      exact ⟨rfl, stop⟩
  rw [if_neg c3, if_neg c3]
  by_cases c4 : c = 'i'.toNat ∨ c = 'I'.toNat
  · rw [if_pos c4, if_pos c4]
    by_cases hq : st.pos = (if st.signSet = true then 1 else 0)
    · rw [if_pos hq, if_pos hq]
      cases he : eatInf mem (str + st.pos + 1) with
      | error e => exact ⟨rfl, fun s e => by cases e⟩
      | ok k =>
        have hle := eatInf_le he
        constructor
        · show Except.ok _ = Except.ok _
          rw [addW_eq (show k + 1 < _ by omega), addW_eq (by omega)]
        · intro s e
          obtain rfl := Except.ok.inj e
          refine h.switch rfl rfl rfl rfl (Or.inr ⟨rfl, ?_, ?_⟩)
          · show st.pos ≤ st.pos + (k + 1); omega
          · show st.pos + (k + 1) ≤ _; omega
    · rw [if_neg hq, if_neg hq]
      exact ⟨rfl, stop⟩
  rw [if_neg c4, if_neg c4]
  by_cases c5 : (c = '-'.toNat ∨ c = '+'.toNat) ∧ st.pos = 0
  · rw [if_pos c5]
    refine ⟨rfl, fun s e => ?_⟩
    obtain rfl := Except.ok.inj e
    exact h.switch rfl rfl rfl rfl (Or.inl rfl)
  · rw [if_neg c5]
    exact ⟨rfl, stop⟩

theorem step_same {sz : Nat} {T : FloatType} {str : Nat} {st : PState} (hsz : 32 ≤ sz)
    (hmem : mem.length < 2 ^ (sz - 1)) (h : ScanInv T.digits10 st) (hs : st.stop = false) :
    parseStepW sz T mem str st = parseStep T mem str st ∧
    ∀ st', parseStep T mem str st = .ok st' → ScanInv T.digits10 st' ∧ st'.pos ≤ max 2050 (mem.length + 1) := by
  have hp := h.run hs
  have hsz2 : 2 ^ sz = 2 * 2 ^ (sz - 1) := by rw [← pow_succ']; congr 1; omega
  have h32 := two_pow_sz hsz
  unfold parseStepW parseStep
  cases hr : rd mem (str + st.pos) with
  | error e => exact ⟨rfl, fun st' e => by cases e⟩
  | ok c =>
    obtain ⟨e1, e2⟩ := switch_same (str := str) (c := c) hsz hmem h hs
    simp only [ok_bind]
    rw [e1]
    cases hq : parseSwitch T mem str c st with
    | error e => exact ⟨rfl, fun st' e => by cases e⟩
    | ok s =>
      obtain ⟨a1, a2, a3, a4, a5, a6, a7, a8⟩ := e2 s hq
      simp only [ok_bind]
      constructor
      · show Except.ok _ = Except.ok _
        rw [addW_eq (by omega)]
      · intro st' e
        obtain rfl := Except.ok.inj e
        refine ⟨⟨a1, a2, a3, a4, a5, ?_, fun _ => by simp, ?_⟩, ?_⟩
        · intro hst
          rw [Bool.or_eq_false_iff] at hst
          have := of_decide_eq_false hst.2
          unfold maximumOffset at this
          show s.pos + 1 ≤ 2049
          omega
        · show s.powGain ≤ 2050 ∧ s.fracCount ≤ 2050
          omega
        · show s.pos + 1 ≤ _
          omega

theorem loop_same {sz : Nat} {T : FloatType} {str : Nat} (hsz : 32 ≤ sz)
    (hmem : mem.length < 2 ^ (sz - 1)) : ∀ (fuel : Nat) (st : PState), ScanInv T.digits10 st →
    st.pos ≤ max 2050 (mem.length + 1) →
    parseLoopW sz T mem str fuel st = parseLoop T mem str fuel st ∧
    ∀ st', parseLoop T mem str fuel st = .ok st' → ScanInv T.digits10 st' ∧ st'.stop = true ∧
      st'.pos ≤ max 2050 (mem.length + 1)
  | 0, st, h, hb => ⟨rfl, fun st' e => by cases e⟩
  | fuel + 1, st, h, hb => by
    unfold parseLoopW parseLoop
    cases hs : st.stop
    · simp only [Bool.false_eq_true, if_false]
      obtain ⟨e1, e2⟩ := step_same (str := str) hsz hmem h hs
      rw [e1]
      cases hq : parseStep T mem str st with
      | error e => exact ⟨rfl, fun st' e => by cases e⟩
      | ok s =>
        simp only [ok_bind]
        obtain ⟨i1, i2⟩ := e2 s hq
        exact loop_same hsz hmem fuel s i1 i2
    · rw [if_pos rfl]
      refine ⟨rfl, fun st' e => ?_⟩
      obtain rfl := Except.ok.inj e
      exact ⟨h, hs, hb⟩

/-- The difference of the two counters, as an `int`. -/
theorem toInt32_subW {sz a b : Nat} (hsz : 32 ≤ sz) (ha : a ≤ 2 ^ 31) (hb : b ≤ 2 ^ 31) :
    toInt32 (subW sz a b) = toInt32 (subSz a b) := by
  have key : ∀ z, 32 ≤ z → subW z a b % 2 ^ 32 = (a + 2 ^ 32 - b) % 2 ^ 32 := by
    intro z hz
    unfold subW
    have e : 2 ^ z = 2 ^ 32 * 2 ^ (z - 32) := by rw [← pow_add]; congr 1; omega
    rw [e, Nat.mod_mul_right_mod]
    obtain ⟨m, hm⟩ : ∃ m, 2 ^ (z - 32) = m + 1 := ⟨2 ^ (z - 32) - 1, by
      have := Nat.two_pow_pos (z - 32); omega⟩
    rw [hm, show a + 2 ^ 32 * (m + 1) - b = a + 2 ^ 32 - b + 2 ^ 32 * m by rw [mul_add]; omega,
      Nat.add_mul_mod_self_left]
  unfold toInt32
  rw [key sz hsz, show subSz a b = subW 64 a b from rfl, key 64 (by norm_num)]

theorem toInt32_range (n : Nat) : -2 ^ 31 ≤ toInt32 n ∧ toInt32 n < 2 ^ 31 := by
  unfold toInt32
  have := Nat.mod_lt n (show 0 < 2 ^ 32 by norm_num)
  dsimp only
  split_ifs <;> omega

/-- `parse_digits` after its loop. -/
theorem parseDigits_end {sz : Nat} {T : FloatType} {str : Nat} (hsz : 32 ≤ sz) (hmem : mem.length < 2 ^ (sz - 1))
    (x : M PState) (hx : ∀ s, x = .ok s → ScanInv T.digits10 s ∧ s.stop = true ∧ s.pos ≤ max 2050 (mem.length + 1)) :
    (x >>= fun st => accumulate T.W T.digits10 st.digits.reverse 0 0 >>= fun value =>
      (pure { value := value, strEnd := str + subW sz st.pos 1, K := toInt32 (subW sz st.powGain st.fracCount),
              frac := st.frac, special := st.special, sign := st.sign } : M DigitParseResult)) =
    (x >>= fun st => accumulate T.W T.digits10 st.digits.reverse 0 0 >>= fun value =>
      (pure { value := value, strEnd := str + (st.pos - 1), K := toInt32 (subSz st.powGain st.fracCount),
              frac := st.frac, special := st.special, sign := st.sign } : M DigitParseResult)) ∧
    ∀ r, (x >>= fun st => accumulate T.W T.digits10 st.digits.reverse 0 0 >>= fun value =>
      (pure { value := value, strEnd := str + (st.pos - 1), K := toInt32 (subSz st.powGain st.fracCount),
              frac := st.frac, special := st.special, sign := st.sign } : M DigitParseResult)) = .ok r →
      -2 ^ 31 ≤ r.K ∧ r.K < 2 ^ 31 := by
  have hsz2 : 2 ^ sz = 2 * 2 ^ (sz - 1) := by rw [← pow_succ']; congr 1; omega
  have h32 := two_pow_sz hsz
  cases x with
  | error e =>
    have he : ∀ f : PState → M DigitParseResult, (Except.error e : M PState) >>= f = Except.error e := fun _ => rfl
    rw [he, he]
    exact ⟨rfl, fun r e => by cases e⟩
  | ok s =>
    obtain ⟨i1, i2, i3⟩ := hx s rfl
    have hz := i1.moved i2
    have hsm := i1.small
    have q1 : subW sz s.pos 1 = s.pos - 1 := subW_eq hz (by omega)
    have q2 : toInt32 (subW sz s.powGain s.fracCount) = toInt32 (subSz s.powGain s.fracCount) :=
      toInt32_subW hsz (hsm.1.trans (by norm_num)) (hsm.2.trans (by norm_num))
    have q3 := toInt32_range (subSz s.powGain s.fracCount)
    rw [ok_bind, ok_bind]
    generalize toInt32 (subSz s.powGain s.fracCount) = y at *
    generalize toInt32 (subW sz s.powGain s.fracCount) = y' at *
    generalize subW sz s.pos 1 = z at *
    subst q1 q2
    refine ⟨rfl, fun r e => ?_⟩
    obtain ⟨v, -, e⟩ := bind_ok e
    obtain rfl := Except.ok.inj e
    exact q3

theorem parseDigits_same {sz : Nat} {T : FloatType} {str : Nat} (hsz : 32 ≤ sz) (hmem : mem.length < 2 ^ (sz - 1)) :
    parseDigitsW sz T mem str = parseDigits T mem str ∧
    ∀ r, parseDigits T mem str = .ok r → -2 ^ 31 ≤ r.K ∧ r.K < 2 ^ 31 := by
  have h0 : PState.init.pos ≤ max 2050 (mem.length + 1) := Nat.zero_le _
  obtain ⟨e1, e2⟩ := loop_same (T := T) (str := str) hsz hmem (maximumOffset + 3) PState.init (ScanInv.init _) h0
  unfold parseDigitsW parseDigits
  rw [e1]
  exact parseDigits_end hsz hmem _ e2

theorem intW_cast (sz : Nat) (x : Int) : ((intW sz x : Nat) : Int) = x % 2 ^ sz := by
  unfold intW
  rw [Int.toNat_of_nonneg (Int.emod_nonneg _ (by positivity))]

theorem addW_cast (sz a b : Nat) : ((addW sz a b : Nat) : Int) = ((a : Int) + b) % 2 ^ sz := by
  unfold addW
  push_cast
  rfl

theorem subW_cast {sz a b : Nat} (h : b ≤ 2 ^ sz) : ((subW sz a b : Nat) : Int) = ((a : Int) - b) % 2 ^ sz := by
  unfold subW
  rw [Int.natCast_mod, Int.ofNat_sub (by omega)]
  push_cast
  rw [show (a : Int) + 2 ^ sz - b = (a - b) + 2 ^ sz by ring, Int.add_emod_right]

theorem toInt32_wrapW {sz n : Nat} {y : Int} (hsz : 32 ≤ sz) (h : (n : Int) = y % 2 ^ sz) (h1 : -2 ^ 31 ≤ y) (h2 : y < 2 ^ 31) :
    toInt32 n = y := by
  have hm : ((n % 2 ^ 32 : Nat) : Int) = y % 2 ^ 32 := by
    rw [Int.natCast_mod, h]
    push_cast
    exact Int.emod_emod_of_dvd y (pow_dvd_pow 2 hsz)
  unfold toInt32
  dsimp only
  split_ifs with hc
  · rw [hm]
    omega
  · rw [hm]
    omega

theorem mulW_same {sz : Nat} (hsz : 32 ≤ sz) (W : Nat) (x y : DiyFp) (h1 : -2 ^ 31 ≤ x.e + y.e + W)
    (h2 : x.e + y.e + W < 2 ^ 31) : x.mulW sz W y = x.mul W y := by
  unfold DiyFp.mulW
  have : toInt32 (addW sz (intW sz x.e) (addW sz (intW sz y.e) W)) = x.e + y.e + W := by
    apply toInt32_wrapW hsz _ h1 h2
    rw [addW_cast, addW_cast, intW_cast, intW_cast]
    simp only [Int.emod_add_emod, Int.add_emod_emod]
    rw [add_assoc]
  rw [this]
  rfl

theorem chkInt_ok {x : Int} (h1 : -2 ^ 31 ≤ x) (h2 : x < 2 ^ 31) : chkInt x = .ok x := by
  unfold chkInt
  rw [if_pos ⟨by omega, by omega⟩]

theorem toInt32_smallW {n : Nat} (h : n < 2 ^ 31) : toInt32 n = n := by
  unfold toInt32
  dsimp only
  rw [Nat.mod_eq_of_lt (by omega), if_pos h]

theorem normalizeLoopW_same {W : Nat} : ∀ (n : Nat) (w : DiyFp), -2 ^ 31 + n ≤ w.e → w.e < 2 ^ 31 →
    normalizeLoopW W n w = normalizeLoop W n w := by
  intro n
  induction n with
  | zero => intros; rfl
  | succ n ih =>
    intro w h1 h2
    push_cast at h1
    unfold normalizeLoopW normalizeLoop
    by_cases hb : highestBit W w.f = true
    · rw [if_pos hb, if_pos hb]
    · rw [if_neg hb, if_neg hb, chkInt_ok (by omega) (by omega), ok_bind]
      exact ih _ (by dsimp only; omega) (by dsimp only; omega)

theorem normalizeW_same {W : Nat} {w : DiyFp} (h1 : -2 ^ 31 + W ≤ w.e) (h2 : w.e < 2 ^ 31) :
    w.normalizeW W = w.normalize W := by
  unfold DiyFp.normalizeW DiyFp.normalize
  rw [normalizeLoopW_same W w h1 h2]

theorem incW_same {W : Nat} {w : DiyFp} (h1 : -2 ^ 31 ≤ w.e + 1) (h2 : w.e + 1 < 2 ^ 31) :
    w.incW W = .ok (w.inc W) := by
  unfold DiyFp.incW DiyFp.inc
  split_ifs
  · rfl
  · rw [chkInt_ok h1 h2]; rfl

theorem decW_same {W : Nat} {w : DiyFp} (h1 : -2 ^ 31 ≤ w.e - 1) (h2 : w.e - 1 < 2 ^ 31) :
    w.decW W = .ok (w.dec W) := by
  unfold DiyFp.decW DiyFp.dec
  split_ifs
  · rfl
  · rw [chkInt_ok h1 h2]; rfl

theorem me_lt (T : FloatType) (bits : Nat) :
    (bits &&& ((2 ^ T.W - 1 - mask T.W T.mbs) ^^^ msbValue T.W)) >>> T.mbs < 2048 := by
  have h1 : bits &&& ((2 ^ T.W - 1 - mask T.W T.mbs) ^^^ msbValue T.W) ≤ (2 ^ T.W - 1 - mask T.W T.mbs) ^^^ msbValue T.W :=
    Nat.and_le_right
  have h2 : (2 ^ T.W - 1 - mask T.W T.mbs) ^^^ msbValue T.W < 2048 * 2 ^ T.mbs := by cases T <;> decide
  rw [Nat.shiftRight_eq_div_pow, Nat.div_lt_iff_lt_mul (by positivity)]
  omega

theorem bias_range (T : FloatType) : 100 ≤ T.bias ∧ T.bias ≤ 1100 := by cases T <;> decide

theorem ofFloat_e (T : FloatType) (bits : Nat) : -1100 ≤ (DiyFp.ofFloat T bits).e ∧ (DiyFp.ofFloat T bits).e ≤ 2048 := by
  have h := me_lt T bits
  have hb := bias_range T
  unfold DiyFp.ofFloat
  dsimp only
  generalize (bits &&& ((2 ^ T.W - 1 - mask T.W T.mbs) ^^^ msbValue T.W)) >>> T.mbs = me at *
  split_ifs <;> dsimp only <;> omega

theorem ofFloatW_same (T : FloatType) (bits : Nat) : DiyFp.ofFloatW T bits = .ok (DiyFp.ofFloat T bits) := by
  have h := me_lt T bits
  have hb := bias_range T
  unfold DiyFp.ofFloatW DiyFp.ofFloat
  dsimp only
  generalize (bits &&& ((2 ^ T.W - 1 - mask T.W T.mbs) ^^^ msbValue T.W)) >>> T.mbs = me at *
  rw [toInt32_smallW (by omega)]
  split_ifs
  · rw [chkInt_ok (by omega) (by omega)]; rfl
  · rw [chkInt_ok (by omega) (by omega)]; rfl

theorem normIeeeLoopW_same {T : FloatType} : ∀ (n : Nat) (w : DiyFp), -2 ^ 31 + n ≤ w.e → w.e < 2 ^ 31 →
    normIeeeLoopW T n w = normIeeeLoop T n w := by
  intro n
  induction n with
  | zero => intros; rfl
  | succ n ih =>
    intro w h1 h2
    push_cast at h1
    unfold normIeeeLoopW normIeeeLoop
    by_cases hb : nthBit w.f T.p = true
    · rw [if_pos hb, if_pos hb]
    · rw [if_neg hb, if_neg hb, chkInt_ok (by omega) (by omega), ok_bind]
      exact ih _ (by dsimp only; omega) (by dsimp only; omega)

theorem normIeeeLoop_e {T : FloatType} : ∀ (n : Nat) (w r : DiyFp), normIeeeLoop T n w = .ok r → r.e ≤ w.e ∧ w.e ≤ r.e + n := by
  intro n
  induction n with
  | zero => intro w r h; cases h
  | succ n ih =>
    intro w r h
    unfold normIeeeLoop at h
    split_ifs at h with hb
    · cases h; omega
    · have := ih _ _ h
      dsimp only at this
      push_cast
      omega

theorem normIeee_same {T : FloatType} {w : DiyFp} (h1 : -3000 ≤ w.e) (h2 : w.e ≤ 3000) :
    w.normalizeFromIeee754W T = w.normalizeFromIeee754 T ∧
    ∀ r, w.normalizeFromIeee754 T = .ok r → -3200 ≤ r.e ∧ r.e ≤ 3000 := by
  have hW : 32 ≤ T.W ∧ T.W ≤ 64 := by cases T <;> decide
  have hp : T.p < T.W := by cases T <;> decide
  unfold DiyFp.normalizeFromIeee754W DiyFp.normalizeFromIeee754
  rw [normIeeeLoopW_same _ _ (by push_cast; omega) (by omega)]
  cases ha : assertM (w.f != 0) with
  | error e => exact ⟨rfl, fun r h => by cases h⟩
  | ok _ =>
    simp only [ok_bind]
    cases hq : normIeeeLoop T (T.W + 1) w with
    | error e => exact ⟨rfl, fun r h => by cases h⟩
    | ok v =>
      simp only [ok_bind]
      have he := normIeeeLoop_e _ _ _ hq
      push_cast at he
      have hs : toInt32 (subW T.W (intW T.W v.e) (T.W - T.p - 1)) = v.e - ((T.W - T.p - 1 : Nat) : Int) := by
        have hle : T.W - T.p - 1 ≤ 2 ^ T.W := le_trans (by omega) (Nat.lt_two_pow_self (n := T.W)).le
        apply toInt32_wrapW hW.1 _ (by omega) (by omega)
        rw [subW_cast hle, intW_cast, Int.emod_sub_emod]
      rw [hs]
      refine ⟨rfl, fun r h => ?_⟩
      cases h
      dsimp only
      omega

theorem boundariesW_same (T : FloatType) (bits : Nat) : boundariesW T bits = boundaries T bits := by
  have he := ofFloat_e T bits
  unfold boundariesW boundaries
  rw [ofFloatW_same, ok_bind, chkInt_ok (by omega) (by omega), ok_bind]
  generalize DiyFp.ofFloat T bits = v at *
  dsimp only
  obtain ⟨h1, h2⟩ := normIeee_same (T := T) (w := { f := ((v.f <<< 1) % 2 ^ T.W + 1) % 2 ^ T.W, e := v.e - 1 })
    (by dsimp only; omega) (by dsimp only; omega)
  rw [h1]
  cases hq : DiyFp.normalizeFromIeee754 T { f := ((v.f <<< 1) % 2 ^ T.W + 1) % 2 ^ T.W, e := v.e - 1 } with
  | error e => rfl
  | ok pl =>
    have hpl := h2 pl hq
    have hs : ∀ b : Bool, ((1 + (if b = true then 1 else 0) : Nat) : Int) ≤ 2 ∧ 0 ≤ ((1 + (if b = true then 1 else 0) : Nat) : Int) := by
      intro b; cases b <;> simp
    have hs := hs (v.f == T.hiddenBit)
    simp only [ok_bind]
    rw [chkInt_ok (x := v.e - _) (by omega) (by omega), ok_bind, chkInt_ok (x := v.e - _ - _) (by omega) (by omega), ok_bind]

theorem cachedPowerW_same {sz : Nat} (hsz : 32 ≤ sz) (T : FloatType) {k : Int} (h : k < 2 ^ 31) :
    cachedPowerW sz T k = cachedPower T k := by
  unfold cachedPowerW cachedPower
  have hoff : T.pow0Offset ≤ 343 := by cases T <;> decide
  by_cases hk : k ≥ -(T.pow0Offset : Int)
  · have : addW sz T.pow0Offset (intW sz k) = ((T.pow0Offset : Int) + k).toNat := by
      have hc : ((addW sz T.pow0Offset (intW sz k) : Nat) : Int) = (T.pow0Offset : Int) + k := by
        rw [addW_cast, intW_cast, Int.add_emod_emod]
        have : ((2 ^ 32 : ℕ) : ℤ) ≤ ((2 ^ sz : ℕ) : ℤ) := by exact_mod_cast two_pow_sz hsz
        push_cast at this
        exact Int.emod_eq_of_lt (by omega) (by omega)
      omega
    rw [this]
    rfl
  · have : assertM (decide (k ≥ -(T.pow0Offset : Int))) = .error .assertFail := by
      rw [decide_eq_false hk]; rfl
    rw [this]
    rfl

theorem downsampleW_same {sz : Nat} (hsz : 32 ≤ sz) (T : FloatType) (w : DiyFp) (he1 : -2 ^ 30 ≤ w.e) (he2 : w.e < 2 ^ 30) :
    w.downsampleW sz T = w.downsample T := by
  have h32 := two_pow_sz hsz
  have hW : T.W ≤ 64 := by cases T <;> decide
  have hm : -1100 ≤ T.minExp - T.mbs ∧ T.minExp - T.mbs ≤ 0 := by cases T <;> decide
  unfold DiyFp.downsampleW DiyFp.downsample
  dsimp only
  by_cases hov : w.e ≥ T.maxExp
  · simp only [if_pos hov]
  rw [chkInt_ok (x := w.e + T.W) (by omega) (by omega), chkInt_ok (x := T.minExp - T.mbs - w.e) (by omega) (by omega)]
  simp only [ok_bind]
  rw [chkInt_ok (x := T.minExp - T.mbs - w.e - 1) (by omega) (by omega)]
  simp only [ok_bind]
  by_cases hun : w.e + T.W < T.minExp - T.mbs
  · simp only [if_neg hov, if_pos hun]
  simp only [if_neg hov, if_neg hun]
  have key : ∀ d b : Nat, d = positivePart (T.minExp - T.mbs - w.e - 1) → b = (if d > T.W - T.p then 1 else 0) →
      subW sz (addW sz (addW sz (intW sz w.e) (max d (T.W - T.p))) (intW sz T.bias)) b % 2 ^ T.W =
      ((w.e + ((max d (T.W - T.p) : Nat) : Int) + T.bias - (b : Int)) % 2 ^ T.W).toNat := by
    intro d b hd hb
    have hb1 : b ≤ 1 := by rw [hb]; split_ifs <;> omega
    have hX : 0 ≤ w.e + ((max d (T.W - T.p) : Nat) : Int) + T.bias - (b : Int) ∧
        w.e + ((max d (T.W - T.p) : Nat) : Int) + T.bias - (b : Int) < 2 ^ 31 := by
      unfold positivePart at hd
      cases T <;> simp [FloatType.bias, FloatType.mbs, FloatType.maxExp, FloatType.minExp, FloatType.p, FloatType.W]
        at hd hb hov hun ⊢ <;> split_ifs at hb <;> omega
    generalize hx : w.e + ((max d (T.W - T.p) : Nat) : Int) + T.bias - (b : Int) = X at hX
    have hc : ((subW sz (addW sz (addW sz (intW sz w.e) (max d (T.W - T.p))) (intW sz T.bias)) b : Nat) : Int) = X := by
      rw [subW_cast (by omega), addW_cast, addW_cast, intW_cast, intW_cast]
      simp only [Int.emod_add_emod, Int.add_emod_emod, Int.emod_sub_emod]
      rw [hx]
      apply Int.emod_eq_of_lt hX.1
      have : ((2 ^ 32 : ℕ) : ℤ) ≤ ((2 ^ sz : ℕ) : ℤ) := by exact_mod_cast h32
      push_cast at this
      omega
    have hW : (2 : Int) ^ 31 < 2 ^ T.W := by cases T <;> norm_num [FloatType.W]
    rw [Int.emod_eq_of_lt hX.1 (by omega)]
    have e : subW sz (addW sz (addW sz (intW sz w.e) (max d (T.W - T.p))) (intW sz T.bias)) b = X.toNat := by omega
    rw [e, Nat.mod_eq_of_lt]
    have : ((X.toNat : Nat) : Int) < ((2 ^ T.W : Nat) : Int) := by push_cast; omega
    exact_mod_cast this
  have k2 := key _ _ rfl rfl
  simp only [Nat.cast_ite, Nat.cast_one, Nat.cast_zero] at k2
  rw [k2]

/-- `normalize` succeeds only with an exponent not above the one given, and at most `W` below it. -/
theorem normalizeLoop_e {W : Nat} : ∀ (n : Nat) (w r : DiyFp), normalizeLoop W n w = .ok r → r.e ≤ w.e ∧ w.e ≤ r.e + n := by
  intro n
  induction n with
  | zero => intro w r h; cases h
  | succ n ih =>
    intro w r h
    unfold normalizeLoop at h
    split_ifs at h with hb
    · cases h; omega
    · have := ih _ _ h
      dsimp only at this
      push_cast
      omega

theorem normalize_e {W : Nat} {w r : DiyFp} (h : w.normalize W = .ok r) : r.e ≤ w.e ∧ w.e ≤ r.e + W := by
  unfold DiyFp.normalize at h
  obtain ⟨_, -, h2⟩ := bind_ok h
  exact normalizeLoop_e W w r h2

theorem adjustMantissaW_same {sz : Nat} (hsz : 32 ≤ sz) (T : FloatType) (value frac : Nat) :
    adjustMantissaW sz T value frac = adjustMantissa T value frac := by
  have hW : T.W ≤ 64 := by cases T <;> decide
  unfold adjustMantissaW adjustMantissa
  rw [normalizeW_same (by dsimp only; omega) (by dsimp only; omega)]
  cases hq : DiyFp.normalize T.W { f := value, e := 0 } with
  | error e => rfl
  | ok w =>
    simp only [ok_bind]
    by_cases hf : frac ≠ 0
    · rw [if_pos hf, if_pos hf]
      by_cases ha : w.e > -(fractionBinaryDigits : Int)
      · have he := (normalize_e hq).1
        have : addW sz fractionBinaryDigits (intW sz w.e) = ((fractionBinaryDigits : Int) + w.e).toNat := by
          have hc : ((addW sz fractionBinaryDigits (intW sz w.e) : Nat) : Int) = (fractionBinaryDigits : Int) + w.e := by
            rw [addW_cast, intW_cast, Int.add_emod_emod]
            have : ((2 ^ 32 : ℕ) : ℤ) ≤ ((2 ^ sz : ℕ) : ℤ) := by exact_mod_cast two_pow_sz hsz
            push_cast at this
            unfold fractionBinaryDigits at ha ⊢
            dsimp only at he
            exact Int.emod_eq_of_lt (by omega) (by push_cast; omega)
          omega
        rw [this]
        have he2 := (normalize_e hq).2
        dsimp only at he he2
        have hin : ∀ f : Nat, DiyFp.incW T.W { f := f, e := w.e } = .ok (DiyFp.inc T.W { f := f, e := w.e }) := fun f =>
          incW_same (by dsimp only; omega) (by dsimp only; omega)
        simp only [hin]
        rfl
      · have : assertM (decide (w.e > -(fractionBinaryDigits : Int))) = .error .assertFail := by
          rw [decide_eq_false ha]; rfl
        rw [this]
        rfl
    · rw [if_neg hf, if_neg hf]

theorem adjustMantissa_e {T : FloatType} {value frac : Nat} {r : DiyFp} (h : adjustMantissa T value frac = .ok r) :
    -64 ≤ r.e ∧ r.e ≤ 1 := by
  unfold adjustMantissa at h
  obtain ⟨w, h1, h2⟩ := bind_ok h
  have he := normalize_e h1
  dsimp only at he
  have hW : T.W ≤ 64 := by cases T <;> decide
  split_ifs at h2 with hf
  · obtain ⟨_, -, h3⟩ := bind_ok h2
    obtain ⟨r', -, h4⟩ := bind_ok h3
    split_ifs at h4
    · cases h4
      unfold DiyFp.inc
      split_ifs <;> dsimp only <;> omega
    · cases h4
      dsimp only
      omega
  · cases h2
    omega

theorem parseMantissa_same {sz : Nat} {T : FloatType} {str : Nat} (hsz : 32 ≤ sz) (hmem : mem.length < 2 ^ (sz - 1)) :
    parseMantissaW sz T mem str = parseMantissa T mem str := by
  unfold parseMantissaW parseMantissa
  rw [(parseDigits_same hsz hmem).1]
  simp only [adjustMantissaW_same hsz]

theorem parseMantissa_e {T : FloatType} {str : Nat} {mp : MantissaParseResult} (h : parseMantissa T mem str = .ok mp) :
    -64 ≤ mp.value.e ∧ mp.value.e ≤ 1 := by
  unfold parseMantissa at h
  obtain ⟨dp, -, h2⟩ := bind_ok h
  by_cases hs : dp.special = .no
  · rw [if_pos hs] at h2
    obtain ⟨w, h3, h4⟩ := bind_ok h2
    by_cases hv : dp.value ≠ 0
    · rw [if_pos hv] at h3
      cases h4; exact adjustMantissa_e h3
    · rw [if_neg hv] at h3
      cases h3; cases h4; simp
  · rw [if_neg hs] at h2
    cases h2; simp

theorem powE_small (T : FloatType) : ∀ e ∈ T.powE, -2000 ≤ e ∧ e ≤ 2000 := by
  have h : T.powE.all (fun e => decide (-2000 ≤ e) && decide (e ≤ 2000)) = true := by cases T <;> decide +kernel
  intro e he
  have := List.all_eq_true.mp h e he
  simpa using this

theorem cachedPower_e {T : FloatType} {k : Int} {c : DiyFp} (h : cachedPower T k = .ok c) : -2000 ≤ c.e ∧ c.e ≤ 2000 := by
  unfold cachedPower at h
  obtain ⟨_, -, h2⟩ := bind_ok h
  dsimp only at h2
  split at h2
  · next f e hf he =>
    cases h2
    exact powE_small T e (List.mem_of_getElem? he)
  · cases h2

theorem seqPow_same {sz : Nat} {K : Int} (hsz : 32 ≤ sz) (h1 : -2 ^ 31 ≤ K) (h2 : K < 2 ^ 31) :
    seqPow 32 exponentDecimalDigits (K % 2 ^ sz).toNat = seqPow 32 exponentDecimalDigits (K % 2 ^ 64).toNat := by
  have key : ∀ z : Nat, 32 ≤ z → (0 ≤ K → (K % 2 ^ z).toNat = K.toNat) ∧
      (K < 0 → exponentDecimalDigits < (K % 2 ^ z).toNat) := by
    intro z hz
    have h32 : ((2 ^ 32 : ℕ) : ℤ) ≤ ((2 ^ z : ℕ) : ℤ) := by exact_mod_cast two_pow_sz hz
    push_cast at h32
    constructor
    · intro h0
      rw [Int.emod_eq_of_lt h0 (by omega)]
    · intro h0
      have : K % 2 ^ z = K + 2 ^ z := by
        rw [← Int.add_emod_right, Int.emod_eq_of_lt (by omega) (by omega)]
      rw [this]
      unfold exponentDecimalDigits
      omega
  obtain ⟨a1, a2⟩ := key sz hsz
  obtain ⟨b1, b2⟩ := key 64 (by norm_num)
  rcases lt_or_ge K 0 with h | h
  · unfold seqPow
    rw [if_neg (by have := a2 h; omega), if_neg (by have := b2 h; omega)]
  · rw [a1 h, b1 h]

theorem parseExponent_same {sz : Nat} {str : Nat} (hsz : 32 ≤ sz) (hmem : mem.length < 2 ^ (sz - 1)) :
    parseExponentW sz mem str = parseExponent mem str := by
  unfold parseExponentW parseExponent
  obtain ⟨e1, e2⟩ := parseDigits_same (T := .float) (str := str + 1) hsz hmem
  rw [e1]
  cases rd mem str with
  | error e => rfl
  | ok c =>
    simp only [ok_bind]
    split_ifs with hc
    · rfl
    · cases hq : parseDigits .float mem (str + 1) with
      | error e => rfl
      | ok r =>
        simp only [ok_bind]
        unfold intW
        rw [seqPow_same hsz (e2 r hq).1 (e2 r hq).2]

theorem kroshTail_same {sz : Nat} {T : FloatType} (hsz : 32 ≤ sz) {v : DiyFp} (he : -64 ≤ v.e ∧ v.e ≤ 1) {K : Int}
    (hK : K < 2 ^ 31) {α : Type} (f : DownsampleResult → M α) :
    ((if K ≠ 0 then do
        let c ← cachedPowerW sz T K
        pure (v.mulW sz T.W c)
      else pure v : M DiyFp) >>= fun w => w.normalizeW T.W >>= fun w => w.downsampleW sz T >>= f) =
    ((if K ≠ 0 then do
        let c ← cachedPower T K
        pure (v.mul T.W c)
      else pure v : M DiyFp) >>= fun w => w.normalize T.W >>= fun w => w.downsample T >>= f) := by
  have hW : T.W ≤ 64 := by cases T <;> decide
  have key : ∀ w : DiyFp, -3000 ≤ w.e → w.e ≤ 3000 →
      (w.normalizeW T.W >>= fun w => w.downsampleW sz T >>= f) = (w.normalize T.W >>= fun w => w.downsample T >>= f) := by
    intro w h1 h2
    rw [normalizeW_same (by omega) (by omega)]
    cases hq : w.normalize T.W with
    | error e => rfl
    | ok u =>
      have := normalize_e hq
      simp only [ok_bind]
      rw [downsampleW_same hsz T u (by omega) (by omega)]
  by_cases h0 : K ≠ 0
  · simp only [if_pos h0]
    rw [cachedPowerW_same hsz T hK]
    cases hc : cachedPower T K with
    | error e => rfl
    | ok c =>
      have hce := cachedPower_e hc
      simp only [ok_bind, pure_bind]
      rw [mulW_same hsz _ _ _ (by omega) (by omega)]
      exact key _ (by rw [mul_e]; omega) (by rw [mul_e]; omega)
  · simp only [if_neg h0, pure_bind]
    exact key _ (by omega) (by omega)

theorem chkInt_lt {x y : Int} (h : chkInt x = .ok y) : y < 2 ^ 31 := by
  unfold chkInt at h
  split_ifs at h with hc
  cases h
  omega

theorem krosh_width {sz : Nat} {T : FloatType} {str : Nat} (hsz : 32 ≤ sz) (hmem : mem.length < 2 ^ (sz - 1)) :
    kroshW sz T mem str = krosh T mem str := by
  unfold kroshW krosh
  rw [parseMantissa_same hsz hmem]
  simp only [parseExponent_same hsz hmem]
  cases hq : parseMantissa T mem str with
  | error e => rfl
  | ok mp =>
    have he := parseMantissa_e hq
    simp only [ok_bind]
    by_cases hs : mp.special = .no ∧ mp.value.f ≠ 0
    · rw [if_pos hs, if_pos hs]
      cases hep : parseExponent mem mp.strEnd with
      | error e => rfl
      | ok ep =>
        simp only [ok_bind]
        cases hK : chkInt (mp.K + ep.value) with
        | error e => rfl
        | ok K =>
          simp only [ok_bind]
          by_cases hr : K ≠ 0 ∧ ¬ (T.powLo ≤ K ∧ K ≤ T.powHi)
          · rw [if_pos hr, if_pos hr]
          · rw [if_neg hr, if_neg hr]
            exact kroshTail_same hsz he (chkInt_lt hK) _
    · rw [if_neg hs, if_neg hs]
      rfl

end Floaxie
