import Verif.Proof.Cost

/-!
# Counting the characters read by the parser
-/

namespace Floaxie
open FloatType Prog

section
variable {α β : Type} {m : List Nat}

/-- The result of a program that only reads (`none`: undefined behaviour) and the number
of its accesses. -/
def outcome : Prog α → List Nat → Option α × Nat
  | .ret a, _ => (some a, 0)
  | .fail _, _ => (none, 0)
  | .load i k, m =>
    match m[i]? with
    | some c => ((outcome (k c) m).1, (outcome (k c) m).2 + 1)
    | none => (none, 0)
  | .store _ _ _, _ => (none, 0)

theorem cost_outcome {p : Prog α} (h : NoStore p) : cost p m = (outcome p m).2 := by
  induction p with
  | ret a => rfl
  | fail e => rfl
  | load i k ih =>
    simp only [cost, outcome]
    cases hc : m[i]? with
    | none => rfl
    | some c => dsimp only; rw [ih c (h c)]
  | store i c k ih => exact h.elim

theorem run_outcome {p : Prog α} {m' : List Nat} {a : α} (h : NoStore p) : run p m = .ok (m', a) → (outcome p m).1 = some a := by
  induction p with
  | ret a => intro h; simp only [run, Except.ok.injEq, Prod.mk.injEq] at h; rw [← h.2]; rfl
  | fail e => intro h; cases h
  | load i k ih =>
    intro hr
    simp only [run, outcome] at hr ⊢
    cases hc : m[i]? with
    | none => rw [hc] at hr; cases hr
    | some c => rw [hc] at hr; exact ih c (h c) hr
  | store i c k ih => exact h.elim

theorem outcome_bind (p : Prog α) (f : α → Prog β) : outcome (p.bind f) m =
    match (outcome p m).1 with
    | some a => ((outcome (f a) m).1, (outcome p m).2 + (outcome (f a) m).2)
    | none => (none, (outcome p m).2) := by
  induction p with
  | ret a => simp [Prog.bind, outcome]
  | fail e => rfl
  | load i k ih =>
    simp only [Prog.bind, outcome]
    cases hc : m[i]? with
    | none => rfl
    | some c =>
      dsimp only
      rw [ih c]
      cases (outcome (k c) m).1 with
      | none => rfl
      | some a => dsimp only; congr 1; omega
  | store i c k ih => rfl

/-- `Q` holds of the result and the number of accesses. -/
def Tr (m : List Nat) (p : Prog α) (Q : Option α → Nat → Prop) : Prop := Q (outcome p m).1 (outcome p m).2

theorem Tr.bind {p : Prog α} {f : α → Prog β} {Q : Option α → Nat → Prop} {R : Option β → Nat → Prop}
    (h : Tr m p Q) (hf : ∀ a n, Q (some a) n → Tr m (f a) fun r k => R r (n + k))
    (hn : ∀ n, Q none n → R none n) : Tr m (p >>= f) R := by
  unfold Tr at h ⊢
  rw [bind_eq, outcome_bind]
  cases hr : (outcome p m).1 with
  | none => rw [hr] at h; exact hn _ h
  | some a => rw [hr] at h; exact hf a _ h

theorem Tr.mono {p : Prog α} {Q R : Option α → Nat → Prop} (h : Tr m p Q) (hq : ∀ r n, Q r n → R r n) : Tr m p R :=
  hq _ _ h

theorem Tr.pure {Q : Option α → Nat → Prop} (a : α) (h : Q (some a) 0) : Tr m (pure a) Q := h
theorem Tr.fail {Q : Option α → Nat → Prop} (e : UB) (h : Q none 0) : Tr m (.fail e) Q := h

theorem Tr.lift {Q : Option β → Nat → Prop} (x : M α) {f : α → Prog β} (h : ∀ a, Tr m (f a) Q) (hn : Q none 0) : Tr m (lift x >>= f) Q := by
  refine Tr.bind (Q := fun _ n => n = 0) (by unfold Tr; cases x <;> rfl) ?_ ?_
  · rintro a n rfl
    exact (h a).mono fun r k hk => by rwa [Nat.zero_add]
  · rintro n rfl
    exact hn

/-- Reading a character and going on. -/
theorem Tr.rd {Q : Option α → Nat → Prop} (i : Nat) {f : Nat → Prog α} (h : ∀ c, m[i]? = some c → Tr m (f c) fun r n => Q r (1 + n))
    (hn : Q none 0) : Tr m (Prog.rd i >>= f) Q := by
  refine Tr.bind (Q := fun r n => (r = none ∧ n = 0) ∨ n = 1 ∧ ∃ c, r = some c ∧ m[i]? = some c) ?_ ?_ ?_
  · unfold Tr
    simp only [Prog.rd, outcome]
    cases hc : m[i]? with
    | none => exact Or.inl ⟨rfl, rfl⟩
    | some c => exact Or.inr ⟨rfl, c, rfl, rfl⟩
  · rintro a n (⟨h1, -⟩ | ⟨rfl, c, h1, h2⟩)
    · cases h1
    · cases h1; exact h _ h2
  · rintro n (⟨-, rfl⟩ | ⟨-, c, h1, -⟩)
    · exact hn
    · cases h1
end

section
variable {m : List Nat} {z : Nat}

theorem before_nul {i c : Nat} (hz : m[z]? = some 0) (hi : i ≤ z) (hc : m[i]? = some c) (h0 : c ≠ 0) : i + 1 ≤ z := by
  rcases Nat.lt_or_ge i z with h | h
  · exact h
  · obtain rfl : i = z := by omega
    rw [hz] at hc
    cases hc
    exact absurd rfl h0

variable [L : Locale]

theorem tr_eatNanLoop (hL : L.lower 0 = 0) (hz : m[z]? = some 0) : ∀ (fuel cp : Nat), cp ≤ z →
    Tr m (eatNanLoopP fuel cp) fun _ n => n ≤ z + 1 - cp
  | 0, _, _ => Tr.fail _ (by omega)
  | fuel + 1, cp, h => by
    rw [eatNanLoopP]
    refine Tr.rd _ (fun c hc => ?_) (by omega)
    split_ifs with h1
    · have h0 : c ≠ 0 := by
        rintro rfl
        rw [hL] at h1
        revert h1
        decide
      have := before_nul hz h hc h0
      exact (tr_eatNanLoop hL hz fuel (cp + 1) this).mono fun r n hn => by omega
    · exact Tr.pure _ (by omega)

theorem tr_eatNan (hL : L.lower 0 = 0) (hz : m[z]? = some 0) (fuel str : Nat) (h : str ≤ z) :
    Tr m (eatNanP fuel str) fun r n => n ≤ z - str + 2 ∧ (('('.toNat ∉ m) → n ≤ 3) ∧ (r = some 0 → n ≤ 2) := by
  unfold eatNanP
  refine Tr.rd _ (fun c0 hc0 => ?_) (by simp)
  split_ifs with h0
  · have b0 := before_nul hz h hc0 (by rintro rfl; revert h0; decide)
    refine Tr.rd _ (fun c1 hc1 => ?_) (by simp)
    split_ifs with h1
    · have b1 := before_nul hz b0 hc1 (by rintro rfl; revert h1; decide)
      refine Tr.rd _ (fun c2 hc2 => ?_) (by simp)
      split_ifs with h2
      · have b2 := before_nul hz b1 hc2 (by rintro rfl; revert h2; decide)
        have hp : '('.toNat ∈ m := by rw [← h2]; exact List.mem_of_getElem? hc2
        refine Tr.bind (tr_eatNanLoop hL hz fuel (str + 3) b2) (fun cp n hn => ?_) fun n hn => ⟨by omega, fun hh => absurd hp hh, by simp⟩
        refine Tr.rd _ (fun c3 _ => ?_) ⟨by omega, fun hh => absurd hp hh, by simp⟩
        split_ifs
        · exact Tr.pure _ ⟨by omega, fun hh => absurd hp hh, by simp⟩
        · exact Tr.pure _ ⟨by omega, fun hh => absurd hp hh, by simp⟩
      · exact Tr.pure _ ⟨by omega, by simp, by simp⟩
    · exact Tr.pure _ ⟨by omega, by simp, by simp⟩
  · exact Tr.pure _ ⟨by omega, by simp, by simp⟩

theorem tr_eatInfLoop : ∀ (xs : List Nat) (cp : Nat), Tr m (eatInfLoopP xs cp) fun r n => n ≤ xs.length ∧ ∀ q, r = some (some q) → q = cp + xs.length
  | [], cp => Tr.pure _ ⟨by simp, by simp⟩
  | x :: xs, cp => by
    rw [eatInfLoopP]
    refine Tr.rd _ (fun c _ => ?_) (by simp)
    split_ifs
    · refine (tr_eatInfLoop xs (cp + 1)).mono fun r n hn => ⟨by simp; omega, fun q hq => ?_⟩
      rw [hn.2 q hq]; simp; omega
    · exact Tr.pure _ (by simp)

theorem tr_eatInf (str : Nat) : Tr m (eatInfP str) fun r n => n ≤ 7 ∧ (r = some 0 → n ≤ 2) := by
  unfold eatInfP
  refine Tr.rd _ (fun c0 hc0 => ?_) (by simp)
  split_ifs with h0
  · refine Tr.rd _ (fun c1 hc1 => ?_) (by simp)
    split_ifs with h1
    · refine Tr.rd _ (fun c2 hc2 => ?_) (by simp)
      split_ifs with h2
      · refine Tr.bind (tr_eatInfLoop _ _) (fun r n hn => ?_) fun n hn => ⟨by have := hn.1; simp at this; omega, by simp⟩
        have h3 := hn.1
        simp at h3
        cases r with
        | none => exact Tr.pure _ ⟨by omega, by simp⟩
        | some cp =>
          have := hn.2 cp rfl
          simp at this
          refine Tr.pure _ ⟨by omega, fun hh => ?_⟩
          simp at hh
          omega
      · exact Tr.pure _ ⟨by omega, by simp⟩
    · exact Tr.pure _ ⟨by omega, by simp⟩
  · exact Tr.pure _ ⟨by omega, by simp⟩

omit L in
theorem tr_fractionDigits : ∀ (n pos : Nat), Tr m (fractionDigitsP n pos) fun _ k => k ≤ n
  | 0, _ => Tr.pure _ (by simp)
  | n + 1, pos => by
    rw [fractionDigitsP]
    refine Tr.rd _ (fun c _ => ?_) (by omega)
    split_ifs
    · refine Tr.bind (tr_fractionDigits n (pos + 1)) (fun _ k hk => Tr.pure _ (by omega)) fun k hk => by omega
    · exact Tr.pure _ (by omega)

/-- Characters that may still be read a second time. -/
def rereads (st : PState) : Nat := if st.fracCalculated then 0 else 4

omit L in
theorem tr_pushDigit (str kappa c : Nat) (st : PState) :
    Tr m (pushDigitP str kappa c st) fun r n => n ≤ rereads st ∧
      ∀ st', r = some st' → st'.pos = st.pos ∧ n + rereads st' ≤ rereads st ∧ st'.special = st.special ∧ st'.stop = st.stop := by
  unfold pushDigitP
  by_cases h1 : st.digits.length < kappa
  · rw [if_pos h1]
    refine Tr.pure _ ⟨by omega, fun st' h => ?_⟩
    cases h
    exact ⟨rfl, by simp [rereads], rfl, rfl⟩
  · rw [if_neg h1]
    refine Tr.bind (Q := fun r n => n ≤ rereads st ∧
      ∀ st', r = some st' → st'.pos = st.pos ∧ n + rereads st' ≤ rereads st ∧ st'.special = st.special ∧ st'.stop = st.stop) ?_ ?_ ?_
    · by_cases h2 : (!st.fracCalculated) = true
      · rw [if_pos h2]
        dsimp only
        by_cases h3 : subSz (st.digits.length + st.zeroLen) kappa > str + st.pos
        · rw [if_pos h3]
          exact Tr.fail _ ⟨by omega, by simp⟩
        rw [if_neg h3]
        have e : rereads st = 4 := by
          have : st.fracCalculated = false := by simpa using h2
          simp [rereads, this]
        unfold extractFractionDigitsP
        refine Tr.bind (Q := fun _ n => n ≤ 4) ?_ (fun t n hn => ?_) fun n hn => ⟨by omega, by simp⟩
        · refine Tr.bind (tr_fractionDigits _ _) (fun _ n hn => ?_) fun n hn => hn
          have : ∀ x : M Nat, Tr m (lift x) fun _ k => n + k ≤ 4 := by
            intro x
            cases x <;> exact hn
          exact this _
        · refine Tr.pure _ ⟨by omega, fun st' h => ?_⟩
          cases h
          exact ⟨rfl, by rw [e]; simp only [rereads, if_true]; omega, rfl, rfl⟩
      · rw [if_neg h2]
        refine Tr.pure _ ⟨by omega, fun st' h => ?_⟩
        cases h
        exact ⟨rfl, by omega, rfl, rfl⟩
    · intro s n hn
      obtain ⟨h2, h3⟩ := hn
      obtain ⟨g1, g2, g3, g4⟩ := h3 s rfl
      refine Tr.pure _ ⟨by omega, fun st' h => ?_⟩
      cases h
      exact ⟨g1, by simp only [rereads] at g2 ⊢; omega, g3, g4⟩
    · intro n hn
      exact ⟨hn.1, by simp⟩

/-- One pass through the loop. -/
theorem tr_parseStep (hL : L.lower 0 = 0) (hz : m[z]? = some 0) (T : FloatType) (fuel str E : Nat)
    (hE : (z - str + 7 ≤ E) ∨ ('('.toNat ∉ m ∧ 7 ≤ E)) (st : PState) (h : str + st.pos ≤ z) :
    Tr m (parseStepP T fuel str st) fun r n => (n ≤ 1 + rereads st ∨ (st.pos ≤ 1 ∧ n ≤ 1 + E)) ∧
      ∀ st', r = some st' →
        (st'.pos = st.pos + 1 ∧ n + rereads st' ≤ 1 + rereads st ∧ (st'.stop = false → str + st'.pos ≤ z)) ∨
        (st'.stop = true ∧ st.pos < st'.pos ∧ (st'.special = .no → n ≤ 3)) := by
  unfold parseStepP
  refine Tr.rd _ (fun c hc => ?_) (by simp)
  have hn0 : ∀ st1 : PState, st1.pos = st.pos → (c = 0 → st1.stop = true) → ∀ n, n + rereads st1 ≤ rereads st →
      ({ st1 with stop := st1.stop || decide (st1.pos > maximumOffset), pos := st1.pos + 1 } : PState).pos = st.pos + 1 ∧
        1 + (n + 0) + rereads { st1 with stop := st1.stop || decide (st1.pos > maximumOffset), pos := st1.pos + 1 } ≤ 1 + rereads st ∧
        (({ st1 with stop := st1.stop || decide (st1.pos > maximumOffset), pos := st1.pos + 1 } : PState).stop = false →
          str + ({ st1 with stop := st1.stop || decide (st1.pos > maximumOffset), pos := st1.pos + 1 } : PState).pos ≤ z) := by
    intro st1 h1 h2 n h3
    refine ⟨by dsimp only; omega, by simp only [rereads] at h3 ⊢; omega, fun hst => ?_⟩
    have : c ≠ 0 := by
      rintro rfl
      rw [h2 rfl] at hst
      simp at hst
    have := before_nul hz h hc this
    dsimp only
    omega
  refine Tr.bind (Q := fun r n => (n ≤ rereads st ∨ (st.pos ≤ 1 ∧ n ≤ E)) ∧ ∀ st1, r = some st1 →
      (st1.pos = st.pos ∧ (c = 0 → st1.stop = true) ∧ n + rereads st1 ≤ rereads st) ∨
      (st1.stop = true ∧ st.pos < st1.pos ∧ (st1.special = .no → n ≤ 2))) ?_ ?_ ?_
  · unfold parseSwitchP
    have simple : ∀ st1 : PState, st1.pos = st.pos → (c = 0 → st1.stop = true) → st1.fracCalculated = st.fracCalculated →
        Tr m (pure st1) fun r n => (n ≤ rereads st ∨ (st.pos ≤ 1 ∧ n ≤ E)) ∧ ∀ st1, r = some st1 →
          (st1.pos = st.pos ∧ (c = 0 → st1.stop = true) ∧ n + rereads st1 ≤ rereads st) ∨
          (st1.stop = true ∧ st.pos < st1.pos ∧ (st1.special = .no → n ≤ 2)) := by
      intro st1 h1 h2 h3
      refine Tr.pure _ ⟨by omega, fun st2 e => ?_⟩
      cases e
      exact Or.inl ⟨h1, h2, by simp [rereads, h3]⟩
    by_cases c1 : c = '0'.toNat
    · rw [if_pos c1]
      refine simple _ ?_ (fun h0 => absurd (h0 ▸ c1) (by simp)) ?_
      · unfold stepZero; split_ifs <;> rfl
      · unfold stepZero; split_ifs <;> rfl
    rw [if_neg c1]
    by_cases c2 : '1'.toNat ≤ c ∧ c ≤ '9'.toNat
    · rw [if_pos c2]
      have f1 : (flushZeros T.digits10 st).pos = st.pos := by unfold flushZeros; split_ifs <;> rfl
      have f2 : rereads (flushZeros T.digits10 st) = rereads st := by unfold flushZeros; split_ifs <;> rfl
      refine (tr_pushDigit str T.digits10 c (flushZeros T.digits10 st)).mono fun r n hn => ⟨by omega, fun st1 e => ?_⟩
      obtain ⟨g1, g2, -, -⟩ := hn.2 st1 e
      exact Or.inl ⟨by omega, fun h0 => absurd (h0 ▸ c2) (by simp), by omega⟩
    rw [if_neg c2]
    by_cases c3 : c = '.'.toNat
    · rw [if_pos c3]
      exact simple _ rfl (fun h0 => absurd (h0 ▸ c3) (by simp)) rfl
    rw [if_neg c3]
    have hsg : st.pos = (if st.signSet then 1 else 0) → st.pos ≤ 1 := by split_ifs <;> omega
    by_cases c4 : c = 'n'.toNat ∨ c = 'N'.toNat
    · rw [if_pos c4]
      have hb := before_nul hz h hc (by rintro rfl; revert c4; decide)
      by_cases hp : st.pos = (if st.signSet then 1 else 0)
      · rw [if_pos hp]
        refine Tr.bind (tr_eatNan hL hz fuel (str + st.pos + 1) hb) (fun eaten n hn => ?_) fun n hn => ?_
        · obtain ⟨g1, g2, g3⟩ := hn
          refine Tr.pure _ ⟨Or.inr ⟨hsg hp, ?_⟩, fun st2 e => ?_⟩
          · rcases hE with hE | ⟨hE, hE'⟩
            · omega
            · have := g2 hE; omega
          · cases e
            refine Or.inr ⟨rfl, by dsimp only; omega, fun hh => ?_⟩
            dsimp only at hh
            split_ifs at hh with he
            have := g3 (by rw [not_not] at he; rw [he])
            omega
        · obtain ⟨g1, g2, g3⟩ := hn
          refine ⟨Or.inr ⟨hsg hp, ?_⟩, by simp⟩
          rcases hE with hE | ⟨hE, hE'⟩
          · omega
          · have := g2 hE; omega
      · rw [if_neg hp]
        exact simple _ rfl (fun _ => rfl) rfl
    rw [if_neg c4]
    by_cases c5 : c = 'i'.toNat ∨ c = 'I'.toNat
    · rw [if_pos c5]
      by_cases hp : st.pos = (if st.signSet then 1 else 0)
      · rw [if_pos hp]
        have hE' : 7 ≤ E := by omega
        refine Tr.bind (tr_eatInf (str + st.pos + 1)) (fun eaten n hn => ?_) fun n hn => ⟨Or.inr ⟨hsg hp, by omega⟩, by simp⟩
        obtain ⟨g1, g3⟩ := hn
        refine Tr.pure _ ⟨Or.inr ⟨hsg hp, by omega⟩, fun st2 e => ?_⟩
        cases e
        refine Or.inr ⟨rfl, by dsimp only; omega, fun hh => ?_⟩
        dsimp only at hh
        split_ifs at hh with he
        have := g3 (by rw [not_not] at he; rw [he])
        omega
      · rw [if_neg hp]
        exact simple _ rfl (fun _ => rfl) rfl
    rw [if_neg c5]
    by_cases c6 : (c = '-'.toNat ∨ c = '+'.toNat) ∧ st.pos = 0
    · rw [if_pos c6]
      exact simple _ rfl (fun h0 => absurd (h0 ▸ c6) (by simp)) rfl
    · rw [if_neg c6]
      exact simple _ rfl (fun _ => rfl) rfl
  · intro st1 n hn
    obtain ⟨h1, h2⟩ := hn
    refine Tr.pure _ ⟨by omega, fun st2 e => ?_⟩
    cases e
    rcases h2 st1 rfl with ⟨g1, g2, g3⟩ | ⟨g1, g2, g3⟩
    · exact Or.inl (hn0 st1 g1 g2 n g3)
    · exact Or.inr ⟨by simp [g1], by dsimp only; omega, fun hh => by have := g3 hh; omega⟩
  · intro n hn
    exact ⟨by omega, by simp⟩

theorem tr_parseLoop (hL : L.lower 0 = 0) (hz : m[z]? = some 0) (T : FloatType) (fuel str E : Nat)
    (hE : (z - str + 7 ≤ E) ∨ ('('.toNat ∉ m ∧ 7 ≤ E)) : ∀ (budget : Nat) (st : PState), (st.stop = false → str + st.pos ≤ z) →
    Tr m (parseLoopP T fuel str budget st) fun r n =>
      (n ≤ min budget (z + 1 - (str + st.pos)) + rereads st ∨ (st.pos ≤ 1 ∧ n + st.pos ≤ 2 + E + rereads st)) ∧
      ∀ st', r = some st' → st'.special = .no → n + st.pos ≤ st'.pos + rereads st + 2
  | 0, st, _ => Tr.fail _ ⟨by omega, by simp⟩
  | budget + 1, st, h => by
    rw [parseLoopP]
    split_ifs with hs
    · refine Tr.pure _ ⟨by omega, fun st' e _ => ?_⟩
      cases e
      omega
    · have hs' : st.stop = false := by simpa using hs
      have hp := h hs'
      refine Tr.bind (tr_parseStep hL hz T fuel str E hE st hp) (fun st1 n hn => ?_) fun n hn => ?_
      · obtain ⟨h1, h2⟩ := hn
        rcases h2 st1 rfl with ⟨g1, g2, g3⟩ | ⟨g1, g2, g3⟩
        · refine (tr_parseLoop hL hz T fuel str E hE budget st1 g3).mono fun r k hk => ⟨?_, fun st' e e' => ?_⟩
          · rcases hk.1 with hk | ⟨hk1, hk2⟩
            · left; omega
            · right; omega
          · have := hk.2 st' e e'
            omega
        · have : parseLoopP T fuel str budget st1 = if budget = 0 then .fail .noTermination else pure st1 := by
            cases budget with
            | zero => rfl
            | succ b => rw [parseLoopP, if_pos g1]; rfl
          rw [this]
          split_ifs
          · exact Tr.fail _ ⟨by omega, by simp⟩
          · refine Tr.pure _ ⟨by omega, fun st' e e' => ?_⟩
            cases e
            have := g3 e'
            omega
      · exact ⟨by omega, by simp⟩

theorem tr_parseDigits (hL : L.lower 0 = 0) (hz : m[z]? = some 0) (T : FloatType) (fuel str E : Nat) (h : str ≤ z)
    (hE : (z - str + 7 ≤ E) ∨ ('('.toNat ∉ m ∧ 7 ≤ E)) :
    Tr m (parseDigitsP T fuel str) fun r n =>
      (n ≤ min 2051 (z + 1 - str) + 4 ∨ n ≤ 6 + E) ∧ ∀ a, r = some a → a.special = .no → n + str ≤ a.strEnd + 7 := by
  unfold parseDigitsP
  refine Tr.bind (tr_parseLoop hL hz T fuel str E hE _ PState.init (fun _ => by simpa [PState.init] using h)) (fun st n hn => ?_) fun n hn => ?_
  · have h1 := hn.1
    have h2 := hn.2 st rfl
    simp only [PState.init, rereads, maximumOffset] at h1 h2
    refine Tr.lift _ (fun v => Tr.pure _ ⟨by simp at h1; omega, fun a e e' => ?_⟩) ⟨?_, by simp⟩
    · cases e
      have := h2 e'
      dsimp only
      simp at this
      omega
    · simp at h1; omega
  · have h1 := hn.1
    simp only [PState.init, rereads, maximumOffset] at h1
    exact ⟨by simp at h1; omega, by simp⟩

theorem tr_krosh (hL : L.lower 0 = 0) (hz : m[z]? = some 0) (hm : m.length = z + 1) (T : FloatType) (fuel : Nat) :
    Tr m (kroshP T fuel 0) fun _ n => n ≤ z + 20 ∧ ('('.toNat ∉ m → n ≤ 4111) := by
  have hE : ∀ str, ∃ E, ((z - str + 7 ≤ E) ∨ ('('.toNat ∉ m ∧ 7 ≤ E)) ∧ (E ≤ z - str + 7) ∧ ('('.toNat ∉ m → E ≤ 7) := by
    intro str
    by_cases h : '('.toNat ∈ m
    · exact ⟨_, Or.inl le_rfl, le_rfl, fun h' => absurd h h'⟩
    · exact ⟨7, Or.inr ⟨h, le_rfl⟩, by omega, fun _ => le_rfl⟩
  obtain ⟨E1, a1, a2, a3⟩ := hE 0
  unfold kroshP
  refine Tr.bind (Q := fun r n => (n ≤ min 2051 (z + 1) + 4 ∨ n ≤ 6 + E1) ∧ ∀ a, r = some a → a.special = .no → n ≤ a.strEnd + 7) ?_ ?_ ?_
  · unfold parseMantissaP
    refine Tr.bind (tr_parseDigits hL hz T fuel 0 E1 (by omega) a1) (fun dp n hn => ?_) fun n hn => ⟨by simpa using hn.1, by simp⟩
    have h1 := hn.1
    have h2 := hn.2 dp rfl
    rw [Nat.sub_zero] at h1
    by_cases hs : dp.special = .no
    · rw [if_pos hs]
      refine Tr.lift _ (fun w => Tr.pure _ ⟨h1, fun a e e' => ?_⟩) ⟨h1, by simp⟩
      cases e
      exact h2 e'
    · rw [if_neg hs]
      refine Tr.pure _ ⟨h1, fun a e e' => ?_⟩
      cases e
      exact h2 e'
  · intro mp n1 hn
    have h1 := hn.1
    have h2 := hn.2 mp rfl
    have hb : n1 ≤ z + 19 ∧ ('('.toNat ∉ m → n1 ≤ 4110) := by
      refine ⟨by omega, fun h => ?_⟩
      have := a3 h
      omega
    have hb' : n1 ≤ z + 20 ∧ ('('.toNat ∉ m → n1 ≤ 4111) := ⟨by omega, fun h => by have := hb.2 h; omega⟩
    by_cases hs : mp.special = .no ∧ mp.value.f ≠ 0
    · rw [if_pos hs]
      have h3 := h2 hs.1
      refine Tr.bind (Q := fun _ n => n1 + n ≤ z + 20 ∧ ('('.toNat ∉ m → n1 + n ≤ 4111)) ?_ (fun ep n2 hn2 => ?_) fun n2 hn2 => hn2
      · unfold parseExponentP
        refine Tr.rd _ (fun c hc => ?_) hb'
        by_cases he : c ≠ 'e'.toNat ∧ c ≠ 'E'.toNat
        · rw [if_pos he]
          exact Tr.pure _ ⟨by omega, fun h => by have := hb.2 h; omega⟩
        · rw [if_neg he]
          have hlt : mp.strEnd ≤ z := by
            have := (List.getElem?_eq_some_iff.mp hc).1
            omega
          have hnx := before_nul hz hlt hc (by rintro rfl; exact he (by decide))
          obtain ⟨E2, b1, b2, b3⟩ := hE (mp.strEnd + 1)
          refine Tr.bind (Q := fun _ n => n1 + (1 + n) ≤ z + 20 ∧ ('('.toNat ∉ m → n1 + (1 + n) ≤ 4111))
            ((tr_parseDigits hL hz .float fuel (mp.strEnd + 1) E2 hnx b1).mono fun r n hn => ?_) (fun dp n2 hn2 => ?_) fun n2 hn2 => hn2
          · have h4 := hn.1
            refine ⟨by omega, fun h => ?_⟩
            have := a3 h
            have := b3 h
            omega
          · refine Tr.lift _ (fun pw => ?_) hn2
            refine Tr.lift _ (fun v => ?_) hn2
            exact Tr.pure _ hn2
      · refine Tr.lift _ (fun K => ?_) hn2
        split_ifs
        all_goals first
          | exact Tr.pure _ hn2
          | exact Tr.lift _ (fun w => Tr.lift _ (fun w => Tr.lift _ (fun v => Tr.pure _ hn2) hn2) hn2) hn2
    · rw [if_neg hs]
      exact Tr.pure _ hb'
  · intro n hn
    have h1 := hn.1
    refine ⟨by omega, fun h => ?_⟩
    have := a3 h
    omega

omit L in
theorem noStore_atof [L : Locale] (T : FloatType) {fbP : Nat → Prog FallbackResult} {errno : Nat} (h : NoStore (fbP errno)) :
    NoStore (atofP T fbP errno (m.length + 1)) := by
  unfold atofP
  refine noStore_bind (ro_krosh (m := m) T 0).2 fun cr => ?_
  split_ifs
  · trivial
  · exact noStore_bind h fun _ => trivial
  · trivial

/-- `atof` on a string with its terminator. -/
theorem cost_atof (hL : L.lower 0 = 0) (hz : m[z]? = some 0) (hm : m.length = z + 1) (T : FloatType)
    {fbP : Nat → Prog FallbackResult} {errno : Nat} (h : NoStore (fbP errno)) :
    cost (atofP T fbP errno (m.length + 1)) m ≤ z + 20 + cost (fbP errno) m ∧
    ('('.toNat ∉ m → cost (atofP T fbP errno (m.length + 1)) m ≤ 4111 + cost (fbP errno) m) := by
  rw [cost_outcome (noStore_atof T h), cost_outcome h]
  change Tr m (atofP T fbP errno (m.length + 1)) fun _ n => n ≤ z + 20 + (outcome (fbP errno) m).2 ∧
    ('('.toNat ∉ m → n ≤ 4111 + (outcome (fbP errno) m).2)
  unfold atofP
  have out : ∀ n, (n ≤ z + 20 ∧ ('('.toNat ∉ m → n ≤ 4111)) → n ≤ z + 20 + (outcome (fbP errno) m).2 ∧
    ('('.toNat ∉ m → n ≤ 4111 + (outcome (fbP errno) m).2) := fun n h => ⟨by omega, fun h' => by have := h.2 h'; omega⟩
  refine Tr.bind (tr_krosh hL hz hm T (m.length + 1)) (fun cr n hn => ?_) fun n hn => out n hn
  split_ifs
  · exact Tr.pure _ (out n hn)
  · have hfb : Tr m (fbP errno) fun _ k => k = (outcome (fbP errno) m).2 := rfl
    refine Tr.bind hfb (fun r k hk => Tr.pure _ ?_) fun k hk => ?_
    · subst hk; exact ⟨by omega, fun h' => by have := hn.2 h'; omega⟩
    · subst hk; exact ⟨by omega, fun h' => by have := hn.2 h'; omega⟩
  · exact Tr.pure _ (out n hn)

end

/-! ## Long payloads -/

section
variable [L : Locale] {m : List Nat}

omit L in
theorem tr_first {α β : Type} {p : Prog α} {f : α → Prog β} {N : Nat} (h : Tr m p fun _ n => N ≤ n) : Tr m (p >>= f) fun _ n => N ≤ n := by
  refine Tr.bind h (fun a n hn => ?_) fun n hn => hn
  exact show N ≤ n + _ by omega

theorem tr_eatNanLoop_long (hL : L.lower 'a'.toNat = 'a'.toNat) : ∀ (N fuel cp : Nat), N < fuel →
    (∀ i, i < N → m[cp + i]? = some 'a'.toNat) → Tr m (eatNanLoopP fuel cp) fun _ n => N ≤ n
  | 0, _, _, _, _ => Nat.zero_le _
  | N + 1, fuel + 1, cp, hf, h => by
    rw [eatNanLoopP]
    have h0 := h 0 (by omega)
    rw [Nat.add_zero] at h0
    unfold Tr
    rw [bind_eq, outcome_bind]
    simp only [Prog.rd, outcome, h0]
    rw [if_pos (by rw [hL]; decide)]
    have := tr_eatNanLoop_long hL N fuel (cp + 1) (by omega) fun i hi => by
      have := h (i + 1) (by omega)
      rwa [show cp + 1 + i = cp + (i + 1) by omega]
    unfold Tr at this
    omega

omit L in
theorem tr_rd_long {α : Type} {f : Nat → Prog α} {i c N : Nat} (hc : m[i]? = some c) (h : Tr m (f c) fun _ n => N ≤ n) :
    Tr m (Prog.rd i >>= f) fun _ n => N ≤ n := by
  unfold Tr at h ⊢
  rw [bind_eq, outcome_bind]
  simp only [Prog.rd, outcome, hc]
  omega

omit L in
theorem cost_bind_ge {α β : Type} {p : Prog α} {f : α → Prog β} (h : NoStore p) : cost p m ≤ cost (p >>= f) m := by
  rw [bind_eq]
  induction p with
  | ret a => exact Nat.zero_le _
  | fail e => exact Nat.zero_le _
  | load i k ih =>
    simp only [Prog.bind, cost]
    cases hc : m[i]? with
    | none => exact le_rfl
    | some c => exact Nat.succ_le_succ (ih c (h c))
  | store i c k ih => exact h.elim

/-- A long NaN payload. -/
theorem cost_atof_long (hL : L.lower 'a'.toNat = 'a'.toNat) (T : FloatType) (fb : Nat → Prog FallbackResult) (errno N : Nat)
    (hl : N < m.length + 1)
    (h0 : m[0]? = some 'n'.toNat) (h1 : m[1]? = some 'a'.toNat) (h2 : m[2]? = some 'n'.toNat) (h3 : m[3]? = some '('.toNat)
    (h4 : ∀ i, i < N → m[4 + i]? = some 'a'.toNat) : N ≤ cost (atofP T fb errno (m.length + 1)) m := by
  have hns := (ro_krosh (m := m) T 0).2
  refine le_trans ?_ (cost_bind_ge hns)
  rw [cost_outcome hns]
  change Tr m (kroshP T (m.length + 1) 0) fun _ n => N ≤ n
  refine tr_first (tr_first (tr_first ?_))
  rw [parseLoopP, if_neg (by decide)]
  refine tr_first ?_
  refine tr_rd_long h0 ?_
  refine tr_first ?_
  unfold parseSwitchP
  rw [if_neg (by decide), if_neg (by decide), if_neg (by decide), if_pos (by decide), if_pos (by decide)]
  refine tr_first ?_
  refine tr_rd_long h1 ?_
  rw [if_pos (by decide)]
  refine tr_rd_long h2 ?_
  rw [if_pos (by decide)]
  refine tr_rd_long h3 ?_
  rw [if_pos (by decide)]
  refine tr_first ?_
  exact tr_eatNanLoop_long hL N _ _ hl h4

end

end Floaxie
