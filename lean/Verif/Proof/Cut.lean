import Verif.Proof.Locale
import Verif.Proof.Frame

/-!
# Reading just the part of the text that was consumed

If `mem'` agrees with `mem` up to where the scan of `mem` ended, and has a terminator there, the
scan of `mem'` has the same outcome.
-/

namespace Floaxie

open FloatType

set_option linter.unusedSectionVars false
set_option linter.unusedSimpArgs false

variable [L : Locale] {mem mem' : List Nat}

/-- A decimal digit character. -/
abbrev DigitChar (c : Nat) : Prop := '0'.toNat ≤ c ∧ c ≤ '9'.toNat

theorem rd_eq_ok {mem : List Nat} {i c : Nat} : rd mem i = .ok c ↔ mem[i]? = some c := by
  unfold rd
  cases h : mem[i]? <;> simp [pure, Except.pure, throw, throwThe, MonadExceptOf.throw]

theorem rd_some {mem : List Nat} {i c : Nat} (h : mem[i]? = some c) : rd mem i = .ok c := rd_eq_ok.2 h

/-- The two memories are the same below `e`. -/
def Agree (mem mem' : List Nat) (e : Nat) : Prop := ∀ i, i < e → mem'[i]? = mem[i]?

theorem fractionDigits_cut {e c c' : Nat} (ha : Agree mem mem' e) (h : mem[e]? = some c) (hc : ¬ DigitChar c)
    (h' : mem'[e]? = some c') (hc' : ¬ DigitChar c') : ∀ (n q : Nat), q ≤ e → fractionDigits mem' n q = fractionDigits mem n q
  | 0, _, _ => rfl
  | n + 1, q, hq => by
    unfold fractionDigits
    rcases Nat.lt_or_ge q e with hl | hl
    · have : rd mem' q = rd mem q := by unfold rd; rw [ha q hl]
      rw [this, fractionDigits_cut ha h hc h' hc' n (q + 1) hl]
    · obtain rfl : q = e := by omega
      rw [rd_some h, rd_some h', ok_bind, ok_bind, if_neg hc, if_neg hc']

theorem eatNanLoop_cut : ∀ (fuel fuel' cp q : Nat), eatNanLoop mem fuel cp = .ok q → Agree mem mem' (q + 1) → q < fuel' + cp →
    eatNanLoop mem' fuel' cp = .ok q ∧ cp ≤ q
  | 0, _, _, _, h, _, _ => by cases h
  | fuel + 1, fuel', cp, q, h, ha, hf => by
    unfold eatNanLoop at h
    obtain ⟨c, h1, h2⟩ := bind_ok h
    split_ifs at h2 with hc
    · cases fuel' with
      | zero =>
        have := (eatNanLoop_cut fuel (q + 1) (cp + 1) q h2 ha (by omega)).2
        omega
      | succ f =>
        obtain ⟨h3, h4⟩ := eatNanLoop_cut fuel f (cp + 1) q h2 ha (by omega)
        unfold eatNanLoop
        have : rd mem' cp = .ok c := by
          rw [← h1]; unfold rd; rw [ha cp (by omega)]
        rw [this, ok_bind, if_pos hc]
        exact ⟨h3, by omega⟩
    · obtain rfl : cp = q := by cases h2; rfl
      cases fuel' with
      | zero => omega
      | succ f =>
        unfold eatNanLoop
        have : rd mem' cp = .ok c := by
          rw [← h1]; unfold rd; rw [ha cp (by omega)]
        rw [this, ok_bind, if_neg hc]
        exact ⟨rfl, le_refl _⟩

theorem Agree.rd {e i : Nat} (ha : Agree mem mem' e) (h : i < e) : rd mem' i = rd mem i := by
  unfold Floaxie.rd; rw [ha i h]

theorem Agree.mono {e e' : Nat} (ha : Agree mem mem' e) (h : e' ≤ e) : Agree mem mem' e' := fun i hi => ha i (by omega)

theorem eatNan_cut {i k : Nat} (h : eatNan mem i = .ok k) (ha : Agree mem mem' (i + k)) (hz : mem'[i + k]? = some 0) :
    eatNan mem' i = .ok k := by
  have hlen : i + k < mem'.length := (List.getElem?_eq_some_iff.1 hz).1
  unfold eatNan at h ⊢
  obtain ⟨c0, h0, h⟩ := bind_ok h
  split_ifs at h with hc0
  · obtain ⟨c1, h1, h⟩ := bind_ok h
    split_ifs at h with hc1
    · obtain ⟨c2, h2, h⟩ := bind_ok h
      split_ifs at h with hc2
      · obtain ⟨q, h3, h⟩ := bind_ok h
        obtain ⟨c, h4, h⟩ := bind_ok h
        split_ifs at h with hc
        · obtain rfl : q - i + 1 = k := by cases h; rfl
          have hq := (eatNanLoop_cut (mem := mem) (mem' := mem) _ (q + 1) (i + 3) q h3 (fun _ _ => rfl) (by omega)).2
          have ha' : Agree mem mem' (q + 1) := ha.mono (by omega)
          obtain ⟨h5, _⟩ := eatNanLoop_cut _ (mem'.length + 1) (i + 3) q h3 ha' (by omega)
          rw [ha.rd (by omega), h0, ok_bind, if_pos hc0, ha.rd (by omega), h1, ok_bind, if_pos hc1, ha.rd (by omega), h2,
            ok_bind, if_pos hc2, h5, ok_bind, ha'.rd (by omega), h4, ok_bind, if_pos hc]
          rfl
        · obtain rfl : 2 = k := by cases h; rfl
          rw [ha.rd (by omega), h0, ok_bind, if_pos hc0, ha.rd (by omega), h1, ok_bind, if_pos hc1, rd_some hz,
            ok_bind, if_neg (by decide)]
          rfl
      · obtain rfl : 2 = k := by cases h; rfl
        rw [ha.rd (by omega), h0, ok_bind, if_pos hc0, ha.rd (by omega), h1, ok_bind, if_pos hc1, rd_some hz,
          ok_bind, if_neg (by decide)]
        rfl
    · obtain rfl : 0 = k := by cases h; rfl
      rw [Nat.add_zero] at hz
      rw [rd_some hz, ok_bind, if_neg (by decide)]
      rfl
  · obtain rfl : 0 = k := by cases h; rfl
    rw [Nat.add_zero] at hz
    rw [rd_some hz, ok_bind, if_neg (by decide)]
    rfl

theorem eatInfLoop_cut : ∀ (xs : List Nat) (cp q : Nat), eatInfLoop mem xs cp = .ok (some q) → Agree mem mem' q →
    eatInfLoop mem' xs cp = .ok (some q) ∧ cp ≤ q
  | [], cp, q, h, _ => by
    unfold eatInfLoop at h ⊢
    obtain rfl : cp = q := by cases h; rfl
    exact ⟨rfl, le_refl _⟩
  | x :: xs, cp, q, h, ha => by
    unfold eatInfLoop at h ⊢
    obtain ⟨c, h1, h⟩ := bind_ok h
    split_ifs at h with hc
    · obtain ⟨h2, h3⟩ := eatInfLoop_cut xs (cp + 1) q h ha
      rw [ha.rd (by omega), h1, ok_bind, if_pos hc]
      exact ⟨h2, by omega⟩
    · cases h

theorem eatInf_cut {i k : Nat} (h : eatInf mem i = .ok k) (ha : Agree mem mem' (i + k)) (hz : mem'[i + k]? = some 0) :
    eatInf mem' i = .ok k := by
  have short : ∀ {c0 c1}, rd mem i = .ok c0 → (c0 = 'n'.toNat ∨ c0 = 'N'.toNat) → rd mem (i + 1) = .ok c1 →
      (c1 = 'f'.toNat ∨ c1 = 'F'.toNat) → 2 = k → eatInf mem' i = .ok k := by
    intro c0 c1 h0 hc0 h1 hc1 e
    subst e
    unfold eatInf
    rw [ha.rd (by omega), h0, ok_bind, if_pos hc0, ha.rd (by omega), h1, ok_bind, if_pos hc1, rd_some hz,
      ok_bind, if_neg (by decide)]
    rfl
  have none' : 0 = k → eatInf mem' i = .ok k := by
    intro e
    subst e
    rw [Nat.add_zero] at hz
    unfold eatInf
    rw [rd_some hz, ok_bind, if_neg (by decide)]
    rfl
  unfold eatInf at h
  obtain ⟨c0, h0, h⟩ := bind_ok h
  split_ifs at h with hc0
  · obtain ⟨c1, h1, h⟩ := bind_ok h
    split_ifs at h with hc1
    · obtain ⟨c2, h2, h⟩ := bind_ok h
      split_ifs at h with hc2
      · obtain ⟨r, h3, h⟩ := bind_ok h
        cases r with
        | none => exact short h0 hc0 h1 hc1 (by cases h; rfl)
        | some q =>
          obtain rfl : q - i = k := by cases h; rfl
          have hq := (eatInfLoop_cut (mem := mem) (mem' := mem) _ _ _ h3 (fun _ _ => rfl)).2
          obtain ⟨h4, _⟩ := eatInfLoop_cut _ _ _ h3 (ha.mono (by omega))
          unfold eatInf
          rw [ha.rd (by omega), h0, ok_bind, if_pos hc0, ha.rd (by omega), h1, ok_bind, if_pos hc1, ha.rd (by omega), h2,
            ok_bind, if_pos hc2, h4, ok_bind]
          rfl
      · exact short h0 hc0 h1 hc1 (by cases h; rfl)
    · exact none' (by cases h; rfl)
  · exact none' (by cases h; rfl)

/-! ## The loop -/

/-- No digit has been read where a word may begin. -/
def Fresh (st : PState) : Prop :=
  (st.pos = 0 → st.digits = [] ∧ st.signSet = false) ∧ (st.pos = 1 → st.signSet = true → st.digits = [])

theorem Fresh.word {st : PState} (h : Fresh st) (hp : st.pos = (if st.signSet then 1 else 0)) : st.digits = [] := by
  split_ifs at hp with hs
  · exact h.2 hp hs
  · exact (h.1 hp).1

/-- One character further, without a sign. -/
theorem Fresh.next {st st1 : PState} (h : Fresh st) (hp : st1.pos = st.pos + 1) (hs : st1.signSet = st.signSet) : Fresh st1 := by
  refine ⟨fun h0 => by omega, fun h1 h2 => ?_⟩
  have := (h.1 (by omega)).2
  rw [← hs, h2] at this
  cases this

theorem flushZeros_frame (κ : Nat) (st : PState) : (flushZeros κ st).stop = st.stop ∧ (flushZeros κ st).pos = st.pos ∧
    (flushZeros κ st).signSet = st.signSet ∧ (st.digits ≠ [] → (flushZeros κ st).digits ≠ []) := by
  unfold flushZeros
  split_ifs with h
  · refine ⟨rfl, rfl, rfl, fun hd => ?_⟩
    dsimp only
    split_ifs <;> simp [hd]
  · exact ⟨rfl, rfl, rfl, id⟩

theorem pushDigit_frame {str κ c : Nat} (hκ : 0 < κ) {st st' : PState} (h : pushDigit mem str κ c st = .ok st') :
    st'.stop = st.stop ∧ st'.pos = st.pos ∧ st'.signSet = st.signSet ∧ st'.digits ≠ [] := by
  unfold pushDigit at h
  by_cases h1 : st.digits.length < κ
  · rw [if_pos h1] at h
    cases h
    exact ⟨rfl, rfl, rfl, by simp⟩
  · rw [if_neg h1] at h
    obtain ⟨s1, h2, h3⟩ := bind_ok h
    have hd : st.digits ≠ [] := by
      intro e; rw [e] at h1; simp at h1; omega
    dsimp only at h2
    split_ifs at h2 with h4 h5
    · obtain ⟨t, h6, h7⟩ := bind_ok h2
      cases h7; cases h3
      exact ⟨rfl, rfl, rfl, hd⟩
    · cases h2; cases h3
      exact ⟨rfl, rfl, rfl, hd⟩

theorem pushDigit_cut {e c c' ch str κ : Nat} (ha : Agree mem mem' e) {st st' : PState}
    (h : pushDigit mem str κ ch st = .ok st') (hend : st.digits.length < κ ∨
      (mem[e]? = some c ∧ ¬ DigitChar c ∧ mem'[e]? = some c' ∧ ¬ DigitChar c')) (hp : str + st.pos ≤ e) :
    pushDigit mem' str κ ch st = .ok st' := by
  unfold pushDigit at h ⊢
  by_cases h1 : st.digits.length < κ
  · rw [if_pos h1] at h ⊢
    exact h
  · rw [if_neg h1] at h ⊢
    rcases hend with h2 | ⟨h2, h3, h4, h5⟩
    · exact absurd h2 h1
    · have : ∀ q, q ≤ e → extractFractionDigits mem' fractionDecimalDigits q = extractFractionDigits mem fractionDecimalDigits q := by
        intro q hq
        unfold extractFractionDigits
        rw [fractionDigits_cut ha h2 h3 h4 h5 _ q hq]
      rw [← h]
      dsimp only
      rw [this _ (by omega)]

/-- What one pass through the loop does, by the kind of character. -/
inductive Pass (T : FloatType) (mem : List Nat) (str : Nat) (st st1 : PState) : Prop
  | zero (hc : mem[str + st.pos]? = some '0'.toNat)
      (he : st1 = { stepZero st with stop := st.stop || decide (st.pos > maximumOffset), pos := st.pos + 1 })
  | digit (c : Nat) (s : PState) (hc : mem[str + st.pos]? = some c) (h0 : c ≠ '0'.toNat) (hd : '1'.toNat ≤ c ∧ c ≤ '9'.toNat)
      (hs : pushDigit mem str T.digits10 c (flushZeros T.digits10 st) = .ok s)
      (he : st1 = { s with stop := s.stop || decide (s.pos > maximumOffset), pos := s.pos + 1 })
  | dot (hc : mem[str + st.pos]? = some '.'.toNat)
      (he : st1 = { st with stop := st.dotSet || decide (st.pos > maximumOffset), dotSet := true, pos := st.pos + 1 })
  | nan (c k : Nat) (hc : mem[str + st.pos]? = some c) (hw : c = 'n'.toNat ∨ c = 'N'.toNat)
      (hp : st.pos = (if st.signSet then 1 else 0)) (hk : eatNan mem (str + st.pos + 1) = .ok k)
      (he : st1 = { st with pos := st.pos + (k + 1) + 1, special := if k ≠ 0 then .nan else st.special, stop := true })
  | inf (c k : Nat) (hc : mem[str + st.pos]? = some c) (hw : c = 'i'.toNat ∨ c = 'I'.toNat)
      (hp : st.pos = (if st.signSet then 1 else 0)) (hk : eatInf mem (str + st.pos + 1) = .ok k)
      (he : st1 = { st with pos := st.pos + (k + 1) + 1, special := if k ≠ 0 then .inf else st.special, stop := true })
  | sign (c : Nat) (hc : mem[str + st.pos]? = some c) (hw : c = '-'.toNat ∨ c = '+'.toNat) (hp : st.pos = 0)
      (he : st1 = { st with sign := decide ('-'.toNat ≠ c), signSet := true, stop := st.stop || decide (st.pos > maximumOffset), pos := st.pos + 1 })
  | other (c : Nat) (hc : mem[str + st.pos]? = some c) (hn : ¬ DigitChar c)
      (he : st1 = { st with stop := true, pos := st.pos + 1 })
      (hr : ∀ mem', parseSwitch T mem' str c st = .ok { st with stop := true })

theorem parseStep_pass {T : FloatType} {str : Nat} {st st1 : PState} (h : parseStep T mem str st = .ok st1) :
    Pass T mem str st st1 := by
  unfold parseStep at h
  obtain ⟨c, h1, h⟩ := bind_ok h
  have hc := rd_eq_ok.1 h1
  obtain ⟨s, h2, h⟩ := bind_ok h
  unfold parseSwitch at h2
  by_cases c0 : c = '0'.toNat
  · rw [if_pos c0] at h2
    subst c0
    cases h2; cases h
    refine .zero hc ?_
    unfold stepZero
    split_ifs <;> rfl
  rw [if_neg c0] at h2
  by_cases c1 : '1'.toNat ≤ c ∧ c ≤ '9'.toNat
  · rw [if_pos c1] at h2
    cases h
    exact .digit c s hc c0 c1 h2 rfl
  rw [if_neg c1] at h2
  by_cases c2 : c = '.'.toNat
  · rw [if_pos c2] at h2
    subst c2
    cases h2; cases h
    exact .dot hc rfl
  rw [if_neg c2] at h2
  have hnd : ¬ DigitChar c := by
    simp only [DigitChar, Char.toNat] at *
    simp at *
    omega
  by_cases c3 : c = 'n'.toNat ∨ c = 'N'.toNat
  · rw [if_pos c3] at h2
    by_cases hp : st.pos = (if st.signSet then 1 else 0)
    · rw [if_pos hp] at h2
      obtain ⟨k, h3, h4⟩ := bind_ok h2
      cases h4; cases h
      exact .nan c k hc c3 hp h3 rfl
    · rw [if_neg hp] at h2
      cases h2; cases h
      refine .other c hc hnd rfl fun m => ?_
      unfold parseSwitch
      rw [if_neg c0, if_neg c1, if_neg c2, if_pos c3, if_neg hp]; rfl
  rw [if_neg c3] at h2
  by_cases c4 : c = 'i'.toNat ∨ c = 'I'.toNat
  · rw [if_pos c4] at h2
    by_cases hp : st.pos = (if st.signSet then 1 else 0)
    · rw [if_pos hp] at h2
      obtain ⟨k, h3, h4⟩ := bind_ok h2
      cases h4; cases h
      exact .inf c k hc c4 hp h3 rfl
    · rw [if_neg hp] at h2
      cases h2; cases h
      refine .other c hc hnd rfl fun m => ?_
      unfold parseSwitch
      rw [if_neg c0, if_neg c1, if_neg c2, if_neg c3, if_pos c4, if_neg hp]; rfl
  rw [if_neg c4] at h2
  by_cases c5 : (c = '-'.toNat ∨ c = '+'.toNat) ∧ st.pos = 0
  · rw [if_pos c5] at h2
    cases h2; cases h
    exact .sign c hc c5.1 c5.2 rfl
  · rw [if_neg c5] at h2
    cases h2; cases h
    refine .other c hc hnd rfl fun m => ?_
    unfold parseSwitch
    rw [if_neg c0, if_neg c1, if_neg c2, if_neg c3, if_neg c4, if_neg c5]; rfl

theorem stepZero_frame (st : PState) : (stepZero st).digits = st.digits ∧ (stepZero st).signSet = st.signSet := by
  unfold stepZero; split_ifs <;> exact ⟨rfl, rfl⟩

theorem Pass.frame {T : FloatType} (hT : 0 < T.digits10) {str : Nat} {st st1 : PState} (h : Pass T mem str st st1) :
    st.pos < st1.pos ∧ (st.digits ≠ [] → st1.digits ≠ []) ∧ (Fresh st → st1.stop = false → Fresh st1) := by
  cases h with
  | zero hc he =>
    subst he
    exact ⟨Nat.lt_succ_self _, by rw [(stepZero_frame st).1]; exact id, fun hf _ => hf.next rfl (stepZero_frame st).2⟩
  | digit c s hc h0 hd hps he =>
    subst he
    obtain ⟨h1, h2, h3, h4⟩ := pushDigit_frame hT hps
    have h5 := flushZeros_frame T.digits10 st
    refine ⟨by dsimp only; omega, fun _ => h4, fun hf _ => hf.next (by dsimp only; omega) (by dsimp only; rw [h3, h5.2.2.1])⟩
  | dot hc he =>
    subst he
    exact ⟨Nat.lt_succ_self _, id, fun hf _ => hf.next rfl rfl⟩
  | nan c k hc hw hp hk he => subst he; exact ⟨by dsimp only; omega, id, fun _ h => by cases h⟩
  | inf c k hc hw hp hk he => subst he; exact ⟨by dsimp only; omega, id, fun _ h => by cases h⟩
  | sign c hc hw hp he =>
    subst he
    exact ⟨Nat.lt_succ_self _, id, fun hf _ => ⟨fun h => by dsimp only at h; omega, fun _ _ => (hf.1 hp).1⟩⟩
  | other c hc hn he hr => subst he; exact ⟨by dsimp only; omega, id, fun _ h => by cases h⟩

/-- One pass of the loop, or none. -/
theorem parseLoop_unfold {T : FloatType} {str fuel : Nat} {st st' : PState} (h : parseLoop T mem str fuel st = .ok st') :
    (st.stop = true ∧ st' = st) ∨
    (st.stop = false ∧ ∃ f st1, fuel = f + 1 ∧ parseStep T mem str st = .ok st1 ∧ parseLoop T mem str f st1 = .ok st') := by
  cases fuel with
  | zero => cases h
  | succ f =>
    unfold parseLoop at h
    cases hs : st.stop with
    | true => rw [hs, if_pos rfl] at h; cases h; exact .inl ⟨rfl, rfl⟩
    | false =>
      rw [hs, if_neg (by simp)] at h
      obtain ⟨st1, h1, h2⟩ := bind_ok h
      exact .inr ⟨rfl, f, st1, rfl, h1, h2⟩

theorem parseLoop_frame {T : FloatType} (hT : 0 < T.digits10) {str : Nat} : ∀ (fuel : Nat) (st st' : PState),
    parseLoop T mem str fuel st = .ok st' → st.pos ≤ st'.pos ∧ (st.stop = false → st.pos < st'.pos) ∧ (st.digits ≠ [] → st'.digits ≠ [])
  | fuel, st, st', h => by
    rcases parseLoop_unfold h with ⟨h1, rfl⟩ | ⟨h1, f, st1, rfl, h2, h3⟩
    · exact ⟨le_refl _, fun h => (by rw [h1] at h; cases h), id⟩
    · obtain ⟨a1, a2, _⟩ := (parseStep_pass h2).frame hT
      obtain ⟨b1, _, b2⟩ := parseLoop_frame hT f st1 st' h3
      exact ⟨by omega, fun _ => by omega, fun h => b2 (a2 h)⟩

/-- Unless it stops at the limit, the scan of a number stops at a character that is not a digit. -/
theorem parseLoop_end {T : FloatType} (hT : 0 < T.digits10) {str : Nat} : ∀ (fuel : Nat) (st st' : PState),
    parseLoop T mem str fuel st = .ok st' → st.stop = false → Fresh st → st'.pos ≤ 2049 → st'.digits ≠ [] →
    ∃ c, mem[str + (st'.pos - 1)]? = some c ∧ ¬ DigitChar c
  | fuel, st, st', h, hs, hf, hl, hd => by
    rcases parseLoop_unfold h with ⟨h1, _⟩ | ⟨h1, f, st1, rfl, h2, h3⟩
    · rw [hs] at h1; cases h1
    · have hp := parseStep_pass h2
      obtain ⟨a1, a2, a3⟩ := hp.frame hT
      cases h1 : st1.stop with
      | false => exact parseLoop_end hT f st1 st' h3 h1 (a3 hf h1) hl hd
      | true =>
        have e : st' = st1 := by
          rcases parseLoop_unfold h3 with ⟨_, e⟩ | ⟨h4, _⟩
          · exact e
          · rw [h1] at h4; cases h4
        subst e
        have hlim : decide (st.pos > maximumOffset) = false := by
          simp [maximumOffset]; omega
        cases hp with
        | zero hc he => subst he; rw [hs, hlim] at h1; cases h1
        | digit c s hc h0 hd hps he =>
          subst he
          obtain ⟨b1, b2, _⟩ := pushDigit_frame hT hps
          have b3 := flushZeros_frame T.digits10 st
          rw [b2, b3.2.1, hlim, b1, b3.1, hs] at h1
          cases h1
        | dot hc he => subst he; exact ⟨_, hc, by decide⟩
        | nan c k hc hw hp hk he => subst he; exact absurd (hf.word hp) hd
        | inf c k hc hw hp hk he => subst he; exact absurd (hf.word hp) hd
        | sign c hc hw hp he => subst he; rw [hs, hlim] at h1; cases h1
        | other c hc hn he hr => subst he; exact ⟨c, hc, hn⟩

theorem parseStep_of {T : FloatType} {str c : Nat} {st s : PState} (hc : mem[str + st.pos]? = some c)
    (h : parseSwitch T mem str c st = .ok s) :
    parseStep T mem str st = .ok { s with stop := s.stop || decide (s.pos > maximumOffset), pos := s.pos + 1 } := by
  unfold parseStep
  rw [rd_some hc, ok_bind, h, ok_bind]; rfl

theorem parseSwitch_nul {T : FloatType} {str : Nat} {st : PState} : parseSwitch T mem str 0 st = .ok { st with stop := true } := by
  unfold parseSwitch
  rw [if_neg (by decide), if_neg (by decide), if_neg (by decide), if_neg (by decide), if_neg (by decide), if_neg]
  · rfl
  · rintro ⟨h, _⟩; revert h; decide

/-- The scan of the same text, cut where the first scan ended. -/
theorem parseLoop_cut {T : FloatType} (hT : 0 < T.digits10) {str : Nat} : ∀ (fuel : Nat) (st st' : PState),
    parseLoop T mem str fuel st = .ok st' → st.stop = false → Fresh st → st'.pos ≤ 2049 →
    Agree mem mem' (str + (st'.pos - 1)) →
    (mem'[str + (st'.pos - 1)]? = some 0 ∨ (st'.digits ≠ [] ∧ mem'[str + (st'.pos - 1)]? = mem[str + (st'.pos - 1)]?)) →
    parseLoop T mem' str fuel st = .ok st'
  | fuel, st, st', h, hs, hf, hl, ha, he => by
    rcases parseLoop_unfold h with ⟨h1, _⟩ | ⟨_, f, st1, rfl, h2, h3⟩
    · rw [hs] at h1; cases h1
    have hend := parseLoop_end hT _ _ _ h hs hf hl
    have hp := parseStep_pass h2
    obtain ⟨a1, a2, a3⟩ := hp.frame hT
    obtain ⟨b1, b2, b3⟩ := parseLoop_frame hT f st1 st' h3
    have hlim : decide (st.pos > maximumOffset) = false := by
      simp [maximumOffset]; omega
    suffices hstep : parseStep T mem' str st = .ok st1 by
      unfold parseLoop
      rw [hs, if_neg (by simp), hstep, ok_bind]
      cases h1 : st1.stop with
      | false => exact parseLoop_cut hT f st1 st' h3 h1 (a3 hf h1) hl ha he
      | true =>
        rcases parseLoop_unfold h3 with ⟨_, e⟩ | ⟨h4, _⟩
        · cases f with
          | zero => cases h3
          | succ g =>
            unfold parseLoop
            rw [h1, if_pos rfl, e]; rfl
        · rw [h1] at h4; cases h4
    have hstop : st1.stop = true → st' = st1 := by
      intro h1
      rcases parseLoop_unfold h3 with ⟨_, e⟩ | ⟨h4, _⟩
      · exact e
      · rw [h1] at h4; cases h4
    have hgo : st1.stop = false → mem'[str + st.pos]? = mem[str + st.pos]? := fun h1 => ha _ (by have := b2 h1; omega)
    have hzero : ∀ {s : PState}, s = { st with stop := true, pos := st.pos + 1 } → mem'[str + st.pos]? = some 0 → parseStep T mem' str st = .ok s := by
      intro s e h
      rw [parseStep_of h parseSwitch_nul, e]
      rfl
    cases hp with
    | zero hc he1 =>
      have h1 : st1.stop = false := by rw [he1, hs, hlim]; rfl
      rw [parseStep_of ((hgo h1).trans hc) (s := stepZero st) (by unfold parseSwitch; rw [if_pos rfl]; rfl), he1]
      unfold stepZero
      split_ifs <;> rfl
    | digit c s hc h0 hd hps he1 =>
      obtain ⟨c1, c2, c3, c4⟩ := pushDigit_frame hT hps
      have c5 := flushZeros_frame T.digits10 st
      have h1 : st1.stop = false := by rw [he1]; dsimp only; rw [c1, c5.1, c2, c5.2.1, hs, hlim]; rfl
      have hd' : st'.digits ≠ [] := b3 (by rw [he1]; exact c4)
      obtain ⟨ce, hce, hne⟩ := hend hd'
      obtain ⟨ce', hce', hne'⟩ : ∃ c', mem'[str + (st'.pos - 1)]? = some c' ∧ ¬ DigitChar c' := by
        rcases he with h | ⟨_, h⟩
        · exact ⟨0, h, by decide⟩
        · exact ⟨ce, h.trans hce, hne⟩
      have hpos := b2 h1
      have := pushDigit_cut ha hps (.inr ⟨hce, hne, hce', hne'⟩) (by rw [c5.2.1]; omega)
      rw [parseStep_of ((hgo h1).trans hc) (s := s) (by unfold parseSwitch; rw [if_neg h0, if_pos hd]; exact this), he1]
    | dot hc he1 =>
      have hsw : ∀ m, parseSwitch T m str '.'.toNat st = .ok { st with stop := st.dotSet, dotSet := true } := by
        intro m
        unfold parseSwitch
        rw [if_neg (by decide), if_neg (by decide), if_pos rfl]; rfl
      cases h1 : st1.stop with
      | false => rw [parseStep_of ((hgo h1).trans hc) (hsw _), he1]
      | true =>
        rw [hstop h1] at he
        have epos : st1.pos - 1 = st.pos := by rw [he1]; rfl
        rw [epos] at he
        rcases he with h | ⟨_, h⟩
        · refine hzero ?_ h
          have hds : st.dotSet = true := by
            rw [he1, hlim] at h1; simpa using h1
          rw [he1, hds, hlim]
          cases st
          dsimp only at hds
          subst hds
          rfl
        · rw [parseStep_of (h.trans hc) (hsw _), he1]
    | nan c k hc hw hp hk he1 =>
      have e := hstop (by rw [he1])
      rcases he with h | ⟨h, _⟩
      · rw [e] at ha h
        have epos : st1.pos - 1 = st.pos + 1 + k := by rw [he1]; dsimp only; omega
        rw [epos] at ha h
        have hk' := eatNan_cut hk (ha.mono (by omega)) (by rw [← h]; congr 1; omega)
        rw [parseStep_of ((ha _ (by omega)).trans hc)
          (s := { st with pos := st.pos + (k + 1), special := if k ≠ 0 then .nan else st.special, stop := true }), he1]
        · rfl
        · have n0 : c ≠ '0'.toNat := by rintro rfl; revert hw; decide
          have n1 : ¬ ('1'.toNat ≤ c ∧ c ≤ '9'.toNat) := by rcases hw with rfl | rfl <;> decide
          have n2 : c ≠ '.'.toNat := by rintro rfl; revert hw; decide
          unfold parseSwitch
          rw [if_neg n0, if_neg n1, if_neg n2, if_pos hw, if_pos hp, hk', ok_bind]
          rfl
      · rw [e, he1] at h
        exact absurd (hf.word hp) h
    | inf c k hc hw hp hk he1 =>
      have e := hstop (by rw [he1])
      rcases he with h | ⟨h, _⟩
      · rw [e] at ha h
        have epos : st1.pos - 1 = st.pos + 1 + k := by rw [he1]; dsimp only; omega
        rw [epos] at ha h
        have hk' := eatInf_cut hk (ha.mono (by omega)) (by rw [← h]; congr 1; omega)
        rw [parseStep_of ((ha _ (by omega)).trans hc)
          (s := { st with pos := st.pos + (k + 1), special := if k ≠ 0 then .inf else st.special, stop := true }), he1]
        · rfl
        · have n0 : c ≠ '0'.toNat := by rintro rfl; revert hw; decide
          have n1 : ¬ ('1'.toNat ≤ c ∧ c ≤ '9'.toNat) := by rcases hw with rfl | rfl <;> decide
          have n2 : c ≠ '.'.toNat := by rintro rfl; revert hw; decide
          have n3 : ¬ (c = 'n'.toNat ∨ c = 'N'.toNat) := by rcases hw with rfl | rfl <;> decide
          unfold parseSwitch
          rw [if_neg n0, if_neg n1, if_neg n2, if_neg n3, if_pos hw, if_pos hp, hk', ok_bind]
          rfl
      · rw [e, he1] at h
        exact absurd (hf.word hp) h
    | sign c hc hw hp he1 =>
      have h1 : st1.stop = false := by rw [he1, hs, hlim]; rfl
      rw [parseStep_of ((hgo h1).trans hc) (s := { st with sign := decide ('-'.toNat ≠ c), signSet := true }), he1]
      have n0 : c ≠ '0'.toNat := by rintro rfl; revert hw; decide
      have n1 : ¬ ('1'.toNat ≤ c ∧ c ≤ '9'.toNat) := by rcases hw with rfl | rfl <;> decide
      have n2 : c ≠ '.'.toNat := by rintro rfl; revert hw; decide
      have n3 : ¬ (c = 'n'.toNat ∨ c = 'N'.toNat) := by rcases hw with rfl | rfl <;> decide
      have n4 : ¬ (c = 'i'.toNat ∨ c = 'I'.toNat) := by rcases hw with rfl | rfl <;> decide
      unfold parseSwitch
      rw [if_neg n0, if_neg n1, if_neg n2, if_neg n3, if_neg n4, if_pos ⟨hw, hp⟩]
      rfl
    | other c hc hn he1 hr =>
      have e := hstop (by rw [he1])
      rw [e] at he
      have epos : st1.pos - 1 = st.pos := by rw [he1]; rfl
      rw [epos] at he
      rcases he with h | ⟨_, h⟩
      · exact hzero he1 h
      · rw [parseStep_of (h.trans hc) (hr _), he1]; rfl

/-! ## `parse_digits` and up -/

theorem fresh_init : Fresh PState.init := ⟨fun _ => ⟨rfl, rfl⟩, fun _ _ => rfl⟩

theorem parseDigits_cut {T : FloatType} (hT : 0 < T.digits10) {str : Nat} {d : DigitParseResult} (h : parseDigits T mem str = .ok d)
    (hl : d.strEnd - str ≤ 2048) (ha : Agree mem mem' d.strEnd)
    (he : mem'[d.strEnd]? = some 0 ∨ (d.value ≠ 0 ∧ mem'[d.strEnd]? = mem[d.strEnd]?)) :
    parseDigits T mem' str = .ok d := by
  unfold parseDigits at h ⊢
  obtain ⟨st, h1, h⟩ := bind_ok h
  obtain ⟨v, h2, h⟩ := bind_ok h
  have hd : d = _ := (Except.ok.inj h).symm
  have e : d.strEnd = str + (st.pos - 1) := by rw [hd]
  have ev : d.value = v := by rw [hd]
  rw [e] at ha hl he
  have := parseLoop_cut hT _ _ _ h1 rfl fresh_init (by omega) ha (he.imp id fun ⟨h3, h4⟩ => ⟨fun h5 => h3 (by
    rw [h5] at h2
    rw [ev]
    cases h2
    rfl), h4⟩)
  rw [this, ok_bind, h2, ok_bind]
  exact h

theorem parseMantissa_cut {T : FloatType} (hT : 0 < T.digits10) {str : Nat} {d : MantissaParseResult} (h : parseMantissa T mem str = .ok d)
    (hl : d.strEnd - str ≤ 2048) (ha : Agree mem mem' d.strEnd)
    (he : mem'[d.strEnd]? = some 0 ∨ (d.special = .no ∧ d.value.f ≠ 0 ∧ mem'[d.strEnd]? = mem[d.strEnd]?)) :
    parseMantissa T mem' str = .ok d := by
  unfold parseMantissa at h ⊢
  obtain ⟨dp, h1, h⟩ := bind_ok h
  have e : dp.strEnd = d.strEnd := by
    split_ifs at h
    · obtain ⟨w, _, h3⟩ := bind_ok h; cases h3; rfl
    · obtain ⟨w, _, h3⟩ := bind_ok h; cases h3; rfl
    · cases h; rfl
  rw [parseDigits_cut hT h1 (by rw [e]; exact hl) (by rw [e]; exact ha), ok_bind]
  · exact h
  · rw [e]
    refine he.imp id fun ⟨h2, h3, h4⟩ => ⟨fun h5 => h3 ?_, h4⟩
    by_cases hs : dp.special = .no
    · rw [if_pos hs, if_neg (by simp [h5])] at h
      cases h
      exact h5
    · rw [if_neg hs] at h
      cases h
      rfl

theorem parseExponent_cut {str : Nat} {d : ExponentParseResult} (h : parseExponent mem str = .ok d)
    (hl : d.strEnd - str ≤ 2048) (ha : Agree mem mem' d.strEnd) (he : mem'[d.strEnd]? = some 0) :
    parseExponent mem' str = .ok d := by
  unfold parseExponent at h ⊢
  obtain ⟨c, h1, h⟩ := bind_ok h
  split_ifs at h with hc
  · cases h
    rw [rd_some he, ok_bind, if_pos (by decide)]; rfl
  · obtain ⟨dp, h2, h⟩ := bind_ok h
    have e : dp.strEnd = d.strEnd := by
      obtain ⟨pw, h3, h⟩ := bind_ok h
      obtain ⟨v, h4, h⟩ := bind_ok h
      cases h; rfl
    have hge : str + 1 ≤ dp.strEnd := by
      unfold parseDigits at h2
      obtain ⟨st, _, h2⟩ := bind_ok h2
      obtain ⟨v, _, h2⟩ := bind_ok h2
      cases h2
      exact Nat.le_add_right _ _
    rw [ha.rd (by omega), h1, ok_bind, if_neg hc, parseDigits_cut (by decide) h2 (by omega) (by rw [e]; exact ha) (.inl (by rw [e]; exact he)), ok_bind]
    exact h

theorem parseExponent_ge {str : Nat} {d : ExponentParseResult} (h : parseExponent mem str = .ok d) :
    (d.strEnd = str ∨ (str < d.strEnd ∧ ∃ c, mem[str]? = some c ∧ (c = 'e'.toNat ∨ c = 'E'.toNat))) := by
  unfold parseExponent at h
  obtain ⟨c, h1, h⟩ := bind_ok h
  split_ifs at h with hc
  · cases h; exact .inl rfl
  · obtain ⟨dp, h2, h⟩ := bind_ok h
    obtain ⟨pw, h3, h⟩ := bind_ok h
    obtain ⟨v, h4, h⟩ := bind_ok h
    cases h
    unfold parseDigits at h2
    obtain ⟨st, _, h2⟩ := bind_ok h2
    obtain ⟨v, _, h2⟩ := bind_ok h2
    cases h2
    refine .inr ⟨by dsimp only; omega, c, rd_eq_ok.1 h1, ?_⟩
    by_contra hn
    exact hc ⟨fun e => hn (.inl e), fun e => hn (.inr e)⟩

/-- **The text that was consumed, alone.** -/
theorem krosh_cut {T : FloatType} (hT : 0 < T.digits10) {str : Nat} {d : KroshResult} (h : krosh T mem str = .ok d)
    (hl : d.strEnd - str ≤ 2048) (ha : Agree mem mem' d.strEnd) (he : mem'[d.strEnd]? = some 0) :
    krosh T mem' str = .ok d := by
  unfold krosh at h ⊢
  obtain ⟨mp, h1, h⟩ := bind_ok h
  have hstr : str ≤ mp.strEnd := by
    unfold parseMantissa at h1
    obtain ⟨dp, h2, h1⟩ := bind_ok h1
    have : str ≤ dp.strEnd := by
      unfold parseDigits at h2
      obtain ⟨st, _, h2⟩ := bind_ok h2
      obtain ⟨v, _, h2⟩ := bind_ok h2
      cases h2
      exact Nat.le_add_right _ _
    split_ifs at h1
    · obtain ⟨w, _, h3⟩ := bind_ok h1; cases h3; exact this
    · obtain ⟨w, _, h3⟩ := bind_ok h1; cases h3; exact this
    · cases h1; exact this
  by_cases hz : mp.special = .no ∧ mp.value.f ≠ 0
  · rw [if_pos hz] at h
    obtain ⟨ep, h2, h⟩ := bind_ok h
    have e : ep.strEnd = d.strEnd := by
      obtain ⟨K, _, h⟩ := bind_ok h
      split_ifs at h
      · cases h; rfl
      · cases h; rfl
      all_goals
        obtain ⟨w, _, h⟩ := bind_ok h
        obtain ⟨w', _, h⟩ := bind_ok h
        obtain ⟨v, _, h⟩ := bind_ok h
        cases h; rfl
    have hge := parseExponent_ge h2
    have hm : parseMantissa T mem' str = .ok mp := by
      refine parseMantissa_cut hT h1 ?_ (ha.mono ?_) ?_
      · rcases hge with h3 | ⟨h3, _⟩ <;> omega
      · rcases hge with h3 | ⟨h3, _⟩ <;> omega
      · rcases hge with h3 | ⟨h3, _⟩
        · rw [← h3, e]; exact .inl he
        · exact .inr ⟨hz.1, hz.2, ha _ (by omega)⟩
    rw [hm, ok_bind, if_pos hz, parseExponent_cut h2 (by omega) (by rw [e]; exact ha) (by rw [e]; exact he), ok_bind]
    exact h
  · rw [if_neg hz] at h
    have e : mp.strEnd = d.strEnd := by cases h; rfl
    rw [parseMantissa_cut hT h1 (by rw [e]; exact hl) (by rw [e]; exact ha) (.inl (by rw [e]; exact he)), ok_bind, if_neg hz]
    exact h

end Floaxie
