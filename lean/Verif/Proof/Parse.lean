import Mathlib.Tactic.Ring
import Mathlib.Tactic.Linarith
import Mathlib.Tactic.NormNum
import Mathlib.Tactic.IntervalCases
import Verif.Proof.Digits
import Verif.Proof.Word
import Verif.Proof.NumeralText
import Verif.Model.Krosh

/-! # The scanning loop of `parse_digits` -/

namespace Floaxie

open Spec FloatType

/-! ## Reading -/

theorem rd_of {mem : List Nat} {i c : Nat} (h : mem[i]? = some c) : rd mem i = .ok c := by
  unfold rd; rw [h]

theorem drop_of_get {mem : List Nat} {i c : Nat} (h : mem[i]? = some c) :
    mem.drop i = c :: mem.drop (i + 1) := by
  obtain ⟨hi, hc⟩ := List.getElem?_eq_some_iff.mp h
  rw [List.drop_eq_getElem_cons hi, hc]

theorem get_of_drop {mem : List Nat} {i c : Nat} {r : List Nat} (h : mem.drop i = c :: r) :
    mem[i]? = some c := by
  have : (mem.drop i)[0]? = some c := by rw [h]; rfl
  rwa [List.getElem?_drop, add_zero] at this

/-- There is a non-digit at or after index `i`. -/
def Stops (mem : List Nat) (i : Nat) : Prop := ∃ z c, i ≤ z ∧ mem[z]? = some c ∧ ¬ IsDig c

theorem Stops.next {mem : List Nat} {i c : Nat} (h : Stops mem i) (hc : mem[i]? = some c)
    (hd : IsDig c) : Stops mem (i + 1) := by
  obtain ⟨z, c', h1, h2, h3⟩ := h
  refine ⟨z, c', ?_, h2, h3⟩
  rcases Nat.lt_or_eq_of_le h1 with h | h
  · omega
  · subst h; rw [hc] at h2; cases h2; exact absurd hd h3

theorem Stops.get {mem : List Nat} {i : Nat} (h : Stops mem i) : ∃ c, mem[i]? = some c := by
  obtain ⟨z, c', h1, h2, h3⟩ := h
  obtain ⟨hz, -⟩ := List.getElem?_eq_some_iff.mp h2
  exact ⟨mem[i], List.getElem?_eq_getElem (by omega)⟩

theorem isDig_iff {c : Nat} : IsDig c ↔ ∃ d : Fin 10, c = digitChar d := by
  constructor
  · rintro ⟨h1, h2⟩
    have h1' : 48 ≤ c := h1
    have h2' : c ≤ 57 := h2
    exact ⟨⟨c - 48, by omega⟩, by unfold digitChar; show c = 48 + (c - 48); omega⟩
  · rintro ⟨d, rfl⟩; exact isDig_digitChar d

/-! ## Fraction digits -/

theorem fractionDigits_ok {mem : List Nat} : ∀ (n i : Nat), Stops mem i →
    ∃ ds : List (Fin 10), ds.length = n ∧ fractionDigits mem n i = .ok (ds.map Fin.val) := by
  intro n
  induction n with
  | zero => intro i _; exact ⟨[], rfl, rfl⟩
  | succ n ih =>
    intro i h
    obtain ⟨c, hc⟩ := h.get
    unfold fractionDigits
    rw [rd_of hc, ok_bind]
    by_cases hd : IsDig c
    · obtain ⟨ds, h1, h2⟩ := ih (i + 1) (h.next hc hd)
      obtain ⟨d, rfl⟩ := isDig_iff.mp hd
      have hd' : '0'.toNat ≤ digitChar d ∧ digitChar d ≤ '9'.toNat := hd
      rw [if_pos hd', h2, ok_bind]
      refine ⟨d :: ds, by simp [h1], ?_⟩
      simp [pure, Except.pure, digitChar]
    · have hd' : ¬ ('0'.toNat ≤ c ∧ c ≤ '9'.toNat) := hd
      rw [if_neg hd']
      exact ⟨List.replicate (n + 1) 0, by simp, by simp [pure, Except.pure]⟩

/-- The digits read from a run of digits `u` followed by a non-digit: the first
`n` of them, padded with zeros. -/
theorem fractionDigits_run {mem : List Nat} : ∀ (n i : Nat) (u : List (Fin 10)) (c : Nat)
    (R : List Nat), mem.drop i = u.map digitChar ++ c :: R → ¬ IsDig c →
    fractionDigits mem n i = .ok ((u.take n ++ List.replicate (n - u.length) 0).map Fin.val) := by
  intro n
  induction n with
  | zero => intro i u c R _ _; simp [fractionDigits, pure, Except.pure]
  | succ n ih =>
    intro i u c R h hc
    unfold fractionDigits
    cases u with
    | nil =>
      rw [List.map_nil, List.nil_append] at h
      rw [rd_of (get_of_drop h), ok_bind]
      have hd' : ¬ ('0'.toNat ≤ c ∧ c ≤ '9'.toNat) := hc
      rw [if_neg hd']
      simp [pure, Except.pure]
    | cons d u =>
      rw [List.map_cons, List.cons_append] at h
      have hg := get_of_drop h
      rw [rd_of hg, ok_bind]
      have hd' : '0'.toNat ≤ digitChar d ∧ digitChar d ≤ '9'.toNat := isDig_digitChar d
      rw [if_pos hd']
      have h2 : mem.drop (i + 1) = u.map digitChar ++ c :: R := by
        have := drop_of_get hg
        rw [h, List.cons.injEq] at this
        exact this.2.symm
      rw [ih _ _ _ _ h2 hc, ok_bind]
      simp [pure, Except.pure, digitChar]

theorem accumulate_ok (W maxPow : Nat) : ∀ (ds : List (Fin 10)) (pow acc : Nat),
    pow + ds.length ≤ maxPow + 1 → acc + digitsVal ds.reverse * 10 ^ pow < 2 ^ W →
    (∀ i ≤ maxPow, 10 ^ i < 2 ^ W) →
    accumulate W maxPow (ds.map Fin.val) pow acc = .ok (acc + digitsVal ds.reverse * 10 ^ pow) := by
  intro ds
  induction ds with
  | nil => intro pow acc _ _ _; simp [accumulate, digitsVal, pure, Except.pure]
  | cons d ds ih =>
    intro pow acc h1 h2 h3
    rw [List.length_cons] at h1
    rw [List.reverse_cons, digitsVal_append, List.length_singleton] at h2 ⊢
    rw [show digitsVal [d] = d.val by simp [digitsVal]] at h2 ⊢
    rw [List.map_cons, accumulate]
    unfold seqPow
    rw [if_pos (by omega), ok_bind]
    rw [Nat.mod_eq_of_lt (h3 pow (by omega))]
    have e : (digitsVal ds.reverse * 10 ^ 1 + d.val) * 10 ^ pow =
        d.val * 10 ^ pow + digitsVal ds.reverse * 10 ^ (pow + 1) := by rw [pow_succ]; ring
    rw [e] at h2 ⊢
    rw [Nat.mod_eq_of_lt (by omega), ih _ _ (by omega) (by omega) h3]
    congr 1; omega

theorem extractFraction_ok {mem : List Nat} {i : Nat} {ds : List (Fin 10)}
    (h1 : ds.length = 4) (h : fractionDigits mem 4 i = .ok (ds.map Fin.val)) :
    extractFractionDigits mem 4 i = .ok (digitsVal ds) := by
  unfold extractFractionDigits
  rw [h, ok_bind]
  have hlt := digitsVal_lt ds
  rw [h1] at hlt
  have := accumulate_ok 32 4 ds.reverse 0 0 (by simp [h1])
    (by rw [List.reverse_reverse]; omega)
    (by intro i hi; interval_cases i <;> norm_num)
  rw [List.reverse_reverse, List.map_reverse] at this
  rw [this]
  congr 1; omega

/-- Value of up to four digits of `u`, padded with zeros. -/
def tail4 (u : List (Fin 10)) : Nat := digitsVal (u.take 4 ++ List.replicate (4 - u.length) 0)

theorem extractFraction_run {mem : List Nat} {i : Nat} {u : List (Fin 10)} {c : Nat} {R : List Nat}
    (h : mem.drop i = u.map digitChar ++ c :: R) (hc : ¬ IsDig c) :
    extractFractionDigits mem 4 i = .ok (tail4 u) :=
  extractFraction_ok (by simp; omega) (fractionDigits_run 4 i u c R h hc)

theorem extractFraction_total {mem : List Nat} {i : Nat} (h : Stops mem i) :
    ∃ tv, tv < 10 ^ 4 ∧ extractFractionDigits mem 4 i = .ok tv := by
  obtain ⟨ds, h1, h2⟩ := fractionDigits_ok 4 i h
  refine ⟨_, ?_, extractFraction_ok h1 h2⟩
  have := digitsVal_lt ds
  rwa [h1] at this

/-! ## Invariant of the loop -/

/-- Text of sign, digits and point. -/
def scanText (n : Numeral) : List Nat := signText n.sign ++ n.mantText

/-- Digits of the numeral, before and after the point. -/
def allDigits (n : Numeral) : List (Fin 10) := n.int ++ n.fracDigits

/-- One more digit. -/
def addDigit (n : Numeral) (d : Fin 10) : Numeral :=
  match n.frac with
  | none => { n with int := n.int ++ [d] }
  | some f => { n with frac := some (f ++ [d]) }

theorem allDigits_add (n : Numeral) (d : Fin 10) : allDigits (addDigit n d) = allDigits n ++ [d] := by
  obtain ⟨s, i, f, e⟩ := n
  cases f <;> simp [addDigit, allDigits, Numeral.fracDigits]

theorem scanText_add (n : Numeral) (d : Fin 10) :
    scanText (addDigit n d) = scanText n ++ [digitChar d] := by
  obtain ⟨s, i, f, e⟩ := n
  cases f <;> simp [addDigit, scanText, Numeral.mantText]

theorem nf_add (n : Numeral) (d : Fin 10) :
    (addDigit n d).fracDigits.length = n.fracDigits.length + (if n.frac.isSome then 1 else 0) := by
  obtain ⟨s, i, f, e⟩ := n
  cases f <;> simp [addDigit, Numeral.fracDigits]

theorem add_frac (n : Numeral) (d : Fin 10) : (addDigit n d).frac.isSome = n.frac.isSome := by
  obtain ⟨s, i, f, e⟩ := n
  cases f <;> simp [addDigit]

theorem add_sign (n : Numeral) (d : Fin 10) : (addDigit n d).sign = n.sign := by
  obtain ⟨s, i, f, e⟩ := n
  cases f <;> simp [addDigit]

theorem scanText_length (n : Numeral) :
    (scanText n).length = (signText n.sign).length + (allDigits n).length +
      (if n.frac.isSome then 1 else 0) := by
  obtain ⟨s, i, f, e⟩ := n
  cases f <;> simp [scanText, allDigits, Numeral.mantText, Numeral.fracDigits] <;> try omega

/-- How the 7-bit fraction relates to the discarded digits `tail`; `q` is the
index of the next character to scan, `nf` the number of digits after the point,
`dot` whether the point has been seen. -/
def FracInv (mem : List Nat) (q nf : Nat) (dot : Bool) (tail : List (Fin 10)) (frac : Nat) : Prop :=
  ∃ tv, tv < 10 ^ 4 ∧ frac = convertNumerator 4 7 tv % 256 ∧
    ((tv = 0 ∧ dot = true ∧ nf < tail.length ∧ ∀ d ∈ tail.take (tail.length - nf), d = 0) ∨
     ∃ q0, extractFractionDigits mem 4 q0 = .ok tv ∧
      ((mem.drop q0 = tail.map digitChar ++ mem.drop q ∧ (dot = false ∧ nf = 0 ∨ dot = true ∧ tail.length ≤ nf)) ∨
       ∃ u v R, u ≠ [] ∧ tail = u ++ v ∧ v.length = nf ∧ dot = true ∧
         mem.drop q0 = u.map digitChar ++ '.'.toNat :: R))

theorem FracInv.digit {mem : List Nat} {q nf : Nat} {dot : Bool} {tail : List (Fin 10)} {frac : Nat} {d : Fin 10}
    (h : FracInv mem q nf dot tail frac) (hd : mem[q]? = some (digitChar d)) :
    FracInv mem (q + 1) (nf + if dot then 1 else 0) dot (tail ++ [d]) frac := by
  obtain ⟨tv, h1, h2, h3⟩ := h
  refine ⟨tv, h1, h2, ?_⟩
  rcases h3 with ⟨h4, h5, h6, h7⟩ | ⟨q0, h4, ⟨h5, h6⟩ | ⟨u, v, R, h5, rfl, h7, h8, h9⟩⟩
  · refine Or.inl ⟨h4, h5, by simp [h5]; omega, ?_⟩
    rw [h5]
    simp only [if_true, List.length_append, List.length_singleton]
    rw [List.take_append_of_le_length (by omega), show tail.length + 1 - (nf + 1) = tail.length - nf by omega]
    exact h7
  · refine Or.inr ⟨q0, h4, Or.inl ⟨?_, ?_⟩⟩
    · rw [h5, drop_of_get hd]; simp
    · rcases h6 with ⟨h6, h7⟩ | ⟨h6, h7⟩
      · left; simp [h6, h7]
      · right; simp [h6, h7]
  · exact Or.inr ⟨q0, h4, Or.inr ⟨u, v ++ [d], R, h5, by simp, by simp [h7, h8], h8, h9⟩⟩

theorem FracInv.dot {mem : List Nat} {q : Nat} {tail : List (Fin 10)} {frac : Nat}
    (h : FracInv mem q 0 false tail frac) (hd : mem[q]? = some '.'.toNat) (hne : tail ≠ []) :
    FracInv mem (q + 1) 0 true tail frac := by
  obtain ⟨tv, h1, h2, h3⟩ := h
  refine ⟨tv, h1, h2, ?_⟩
  rcases h3 with ⟨-, h5, -⟩ | ⟨q0, h4, ⟨h5, h6⟩ | ⟨u, v, R, h5, rfl, h7, h8, h9⟩⟩
  · cases h5
  · refine Or.inr ⟨q0, h4, Or.inr ⟨tail, [], mem.drop (q + 1), hne, by simp, rfl, rfl, ?_⟩⟩
    rw [h5, drop_of_get hd]
  · cases h8

/-- Numeric part of the invariant while all digits so far are zeros. -/
structure CoreE (D : List (Fin 10)) (nf : Nat) (st : PState) : Prop where
  zeros : ∀ d ∈ D, d = 0
  digits : st.digits = []
  zeroLen : st.zeroLen = nf
  powGain : st.powGain = 0
  fracCount : st.fracCount = 0
  fracCalculated : st.fracCalculated = false
  frac : st.frac = 0

/-- Numeric part of the invariant once a non-zero digit has been seen: the digits
are leading zeros, the kept digits `ds`, and the discarded `tail`. -/
structure CoreN (κ : Nat) (mem : List Nat) (q : Nat) (D : List (Fin 10)) (nf : Nat) (st : PState)
    (z : Nat) (ds tail : List (Fin 10)) : Prop where
  split : D = List.replicate z 0 ++ (ds ++ tail)
  head : ∃ d ds', ds = d :: ds' ∧ d ≠ 0
  len : ds.length ≤ κ
  digits : st.digits = ds.map Fin.val
  gain : st.powGain ≤ tail.length
  count : st.powGain + nf = tail.length + st.fracCount
  tail : ((∀ d ∈ tail, d = 0) ∧ st.zeroLen = tail.length ∧ st.fracCalculated = false ∧ st.frac = 0) ∨
    (ds.length = κ ∧ (¬ ∀ d ∈ tail, d = 0) ∧ st.fracCalculated = true ∧ FracInv mem q nf st.dotSet tail st.frac)

/-- State of the loop after scanning `scanText n`. -/
structure Inv (κ : Nat) (mem : List Nat) (str : Nat) (n : Numeral) (st : PState) : Prop where
  pos : st.pos = (scanText n).length
  text : mem.drop str = scanText n ++ mem.drop (str + st.pos)
  stop : st.stop = decide (2049 < st.pos)
  bound : st.pos ≤ 2050
  dot : st.dotSet = n.frac.isSome
  signSet : st.signSet = n.sign.isSome
  sign : st.sign = decide (n.sign ≠ some true)
  special : st.special = .no
  core : CoreE (allDigits n) n.fracDigits.length st ∨
    ∃ z ds tail, CoreN κ mem (str + st.pos) (allDigits n) n.fracDigits.length st z ds tail ∧
      ((∀ d ∈ tail, d = 0) → ds.getLast? ≠ some 0)

theorem inv_init (κ : Nat) (mem : List Nat) (str : Nat) :
    Inv κ mem str ⟨none, [], none, none⟩ PState.init := by
  refine ⟨rfl, ?_, rfl, by decide, rfl, rfl, rfl, rfl, Or.inl ⟨?_, rfl, rfl, rfl, rfl, rfl, rfl⟩⟩
  · simp [scanText, signText, Numeral.mantText, PState.init]
  · simp [allDigits, Numeral.fracDigits]

theorem subSz_eq {a b : Nat} (h : b ≤ a) (ha : a < 2 ^ 64) : subSz a b = a - b := by
  unfold subSz
  rw [show a + 2 ^ 64 - b = (a - b) + 2 ^ 64 by omega, Nat.add_mod_right, Nat.mod_eq_of_lt (by omega)]

theorem map_val_inj {a : List (Fin 10)} : (a.map Fin.val).isEmpty = a.isEmpty := by
  cases a <;> rfl

theorem nil_or_head (l : List (Fin 10)) : (∀ d ∈ l, d = 0) ↔ l = List.replicate l.length 0 := by
  constructor
  · intro h; exact List.eq_replicate_iff.mpr ⟨rfl, h⟩
  · intro h d hd; rw [h] at hd; exact List.eq_of_mem_replicate hd

/-! ## One step -/

theorem window {mem X Y : List Nat} {str q : Nat} (h : mem.drop str = X ++ (Y ++ mem.drop q))
    (hq : q = str + X.length + Y.length) : mem.drop (q - Y.length) = Y ++ mem.drop q := by
  rw [hq, show str + X.length + Y.length - Y.length = str + X.length by omega, ← List.drop_drop, h,
    List.drop_left, ← hq]

/-- The characters just before the current position, when the digits end in `k`
zeros: these zeros, or zeros with the point inside. -/
theorem tail_window {mem : List Nat} {str k : Nat} {n : Numeral} {A : List (Fin 10)}
    (hD : allDigits n = A ++ List.replicate k 0)
    (ht : mem.drop str = scanText n ++ mem.drop (str + (scanText n).length)) :
    (mem.drop (str + (scanText n).length - k) =
        (List.replicate k (0 : Fin 10)).map digitChar ++ mem.drop (str + (scanText n).length) ∧
      (n.frac = none ∨ k ≤ n.fracDigits.length)) ∨
    (n.frac.isSome = true ∧ n.fracDigits.length < k ∧ ∃ j R, mem.drop (str + (scanText n).length - k) =
        (List.replicate j (0 : Fin 10)).map digitChar ++ '.'.toNat :: R) := by
  obtain ⟨s, i, f, e⟩ := n
  generalize hq : str + (scanText ⟨s, i, f, e⟩).length = q at *
  cases f with
  | none =>
    left
    refine ⟨?_, Or.inl rfl⟩
    simp only [allDigits, Numeral.fracDigits, Option.getD_none, List.append_nil] at hD
    simp only [scanText, Numeral.mantText, List.append_nil] at ht hq
    rw [hD] at ht hq
    have := window (X := signText s ++ A.map digitChar)
      (Y := (List.replicate k (0 : Fin 10)).map digitChar) (mem := mem) (str := str) (q := q)
      (by rw [ht]; simp) (by rw [← hq]; simp; omega)
    simpa using this
  | some F =>
    simp only [allDigits, Numeral.fracDigits, Option.getD_some] at hD
    simp only [scanText, Numeral.mantText] at ht hq
    rcases List.append_eq_append_iff.mp hD with ⟨a', h1, h2⟩ | ⟨c', h1, h2⟩
    · left
      refine ⟨?_, Or.inr (by simp [Numeral.fracDigits, h2])⟩
      rw [h2] at ht hq
      have := window (X := signText s ++ i.map digitChar ++ '.'.toNat :: a'.map digitChar)
        (Y := (List.replicate k (0 : Fin 10)).map digitChar) (mem := mem) (str := str) (q := q)
        (by rw [ht]; simp) (by rw [← hq]; simp; omega)
      simpa using this
    · have hk : k = c'.length + F.length := by
        have := congrArg List.length h2; simpa using this
      have hc' : c' = List.replicate c'.length 0 := by
        rw [List.eq_replicate_iff]
        refine ⟨rfl, fun b hb => ?_⟩
        have : b ∈ List.replicate k (0 : Fin 10) := by rw [h2]; simp [hb]
        exact List.eq_of_mem_replicate this
      have hF : F = List.replicate F.length 0 := by
        rw [List.eq_replicate_iff]
        refine ⟨rfl, fun b hb => ?_⟩
        have : b ∈ List.replicate k (0 : Fin 10) := by rw [h2]; simp [hb]
        exact List.eq_of_mem_replicate this
      cases hc : c'.length with
      | zero =>
        left
        rw [hc, List.replicate_zero] at hc'
        have hkF : k = F.length := by omega
        refine ⟨?_, Or.inr (by simp [Numeral.fracDigits, hkF])⟩
        have := window (X := signText s ++ i.map digitChar ++ ['.'.toNat])
          (Y := F.map digitChar) (mem := mem) (str := str) (q := q)
          (by rw [ht]; simp) (by rw [← hq]; simp; omega)
        rw [hkF, ← hF]
        simpa using this
      | succ j =>
        right
        refine ⟨rfl, by simp [Numeral.fracDigits]; omega, j, F.map digitChar ++ mem.drop q, ?_⟩
        rw [hc] at hc'
        have h3 : i.map digitChar = A.map digitChar ++ digitChar 0 ::
            (List.replicate j (0 : Fin 10)).map digitChar := by
          rw [h1, hc', List.replicate_succ]; simp
        have := window (X := signText s ++ (A.map digitChar ++ [digitChar 0]))
          (Y := (List.replicate j (0 : Fin 10)).map digitChar ++ '.'.toNat :: F.map digitChar)
          (mem := mem) (str := str) (q := q)
          (by rw [ht, h3]; simp) (by rw [← hq, h3]; simp; omega)
        have hl : ((List.replicate j (0 : Fin 10)).map digitChar ++ '.'.toNat :: F.map digitChar).length
            = k := by simp; omega
        rw [hl] at this
        rw [this]; simp

theorem flush_fields (κ : Nat) (st : PState) :
    (flushZeros κ st).dotSet = st.dotSet ∧ (flushZeros κ st).signSet = st.signSet ∧
    (flushZeros κ st).stop = st.stop ∧ (flushZeros κ st).pos = st.pos ∧
    (flushZeros κ st).special = st.special ∧ (flushZeros κ st).sign = st.sign := by
  unfold flushZeros; split_ifs <;> simp

/-- Flushing the pending zeros keeps the invariant; afterwards the digits are
complete or nothing is pending. -/
theorem flush_core {κ : Nat} {mem : List Nat} {q : Nat} {D : List (Fin 10)} {nf : Nat} {st : PState}
    {z : Nat} {ds tail : List (Fin 10)} (h : CoreN κ mem q D nf st z ds tail)
    (hκ : κ ≤ 19) (hD : D.length ≤ 2050) (hnf : nf ≤ D.length) :
    ∃ ds1 tail1, CoreN κ mem q D nf (flushZeros κ st) z ds1 tail1 ∧
      (ds1.length = κ ∨ (ds1.length < κ ∧ tail1 = [])) := by
  obtain ⟨h1, ⟨d0, ds0, h2, h2'⟩, h3, h4, h5, h6, h7⟩ := h
  have hlen : tail.length ≤ D.length := by rw [h1]; simp; omega
  have hdl : st.digits.length = ds.length := by rw [h4]; simp
  unfold flushZeros
  by_cases hfull : ds.length = κ
  · rw [if_neg (by rw [hdl]; omega)]
    exact ⟨ds, tail, ⟨h1, ⟨d0, ds0, h2, h2'⟩, h3, h4, h5, h6, h7⟩, Or.inl hfull⟩
  · rcases h7 with ⟨g1, g2, g3, g4⟩ | ⟨g1, -⟩
    swap
    · exact absurd g1 hfull
    by_cases hz : st.zeroLen = 0
    · rw [if_neg (by omega)]
      exact ⟨ds, tail, ⟨h1, ⟨d0, ds0, h2, h2'⟩, h3, h4, h5, h6, Or.inl ⟨g1, g2, g3, g4⟩⟩,
        Or.inr ⟨by omega, List.length_eq_zero_iff.mp (by omega)⟩⟩
    · rw [if_pos ⟨hz, by rw [hdl]; omega⟩]
      have hne : st.digits.isEmpty = false := by rw [h4, h2]; rfl
      simp only [hne, Bool.not_false, if_true, hdl]
      rw [subSz_eq h3 (by omega)]
      set c := min st.zeroLen (κ - ds.length) with hc
      set m := min st.powGain (κ - ds.length) with hm
      have hmc : m ≤ c := by omega
      have htz : tail = List.replicate tail.length 0 := (nil_or_head tail).mp g1
      have hsplit : tail = List.replicate c 0 ++ List.replicate (tail.length - c) 0 := by
        rw [List.replicate_append_replicate]
        rw [show c + (tail.length - c) = tail.length by omega]; exact htz
      rw [subSz_eq hmc (by omega), subSz_eq (by omega) (by omega), subSz_eq (by omega) (by omega),
        Nat.mod_eq_of_lt (by omega)]
      refine ⟨ds ++ List.replicate c 0, List.replicate (tail.length - c) 0,
        ⟨?_, ⟨d0, ds0 ++ List.replicate c 0, by rw [h2]; rfl, h2'⟩, ?_, ?_, ?_, ?_, Or.inl ⟨?_, ?_, g3, g4⟩⟩, ?_⟩
      · rw [h1]; congr 1
        rw [List.append_assoc, ← hsplit]
      · simp; omega
      · dsimp only; rw [h4]; simp
      · dsimp only; simp; omega
      · dsimp only; simp; omega
      · intro d hd; exact List.eq_of_mem_replicate hd
      · dsimp only; simp; omega
      · simp only [List.length_append, List.length_replicate]
        by_cases hcs : st.zeroLen < κ - ds.length
        · right
          exact ⟨by omega, by rw [show tail.length - c = 0 by omega]; rfl⟩
        · left; omega

/-- The state after pushing a non-zero digit. -/
theorem push_ok {κ : Nat} {mem : List Nat} {str : Nat} {n : Numeral} {st : PState} {d : Fin 10}
    (hd : d ≠ 0) (hκ0 : 0 < κ) (hκ : κ ≤ 19) (hinv : Inv κ mem str n st) (hpos : st.pos ≤ 2049)
    (hget : mem[str + st.pos]? = some (digitChar d)) (hst : Stops mem (str + st.pos)) :
    ∃ st', pushDigit mem str κ (digitChar d) (flushZeros κ st) = .ok st' ∧
      (∃ z ds tail, CoreN κ mem (str + st.pos + 1) (allDigits n ++ [d])
        (n.fracDigits.length + if n.frac.isSome then 1 else 0) st' z ds tail ∧
        ((∀ d ∈ tail, d = 0) → ds.getLast? ≠ some 0)) ∧
      st'.dotSet = st.dotSet ∧ st'.signSet = st.signSet ∧
      st'.stop = st.stop ∧ st'.pos = st.pos ∧ st'.special = st.special ∧ st'.sign = st.sign := by
  obtain ⟨f1, f2, f3, f4, f5, f6⟩ := flush_fields κ st
  have hsl := scanText_length n
  have hDlen : (allDigits n).length ≤ 2050 := by
    have := hinv.pos; omega
  have hnfle : n.fracDigits.length ≤ (allDigits n).length := by simp [allDigits]
  have hdv : digitChar d - '0'.toNat = d.val := by simp [digitChar]
  rcases hinv.core with hE | ⟨z, ds, tail, hN, -⟩
  · -- first non-zero digit
    have hflush : (flushZeros κ st).digits = [] ∧ (flushZeros κ st).zeroLen = 0 ∧
        (flushZeros κ st).powGain = 0 ∧ (flushZeros κ st).fracCount = n.fracDigits.length ∧
        (flushZeros κ st).fracCalculated = false ∧ (flushZeros κ st).frac = 0 := by
      obtain ⟨e1, e2, e3, e4, e5, e6, e7⟩ := hE
      unfold flushZeros
      by_cases hz : st.zeroLen = 0
      · rw [if_neg (by omega)]
        exact ⟨e2, hz, e4, by omega, e6, e7⟩
      · rw [if_pos ⟨hz, by rw [e2]; exact hκ0⟩]
        simp only [e2, List.isEmpty_nil, Bool.not_true, Bool.false_eq_true, if_false, e4, e5, e3,
          List.length_nil]
        rw [subSz_eq (by omega) (by omega), subSz_eq (by omega) (by omega), subSz_eq (by omega) (by omega)]
        refine ⟨trivial, by omega, by omega, ?_, e6, e7⟩
        rw [Nat.mod_eq_of_lt (by omega)]; omega
    obtain ⟨g1, g2, g3, g4, g5, g6⟩ := hflush
    unfold pushDigit
    rw [if_pos (by rw [g1]; exact hκ0)]
    refine ⟨_, rfl, ⟨(allDigits n).length, [d], [], ⟨?_, ⟨d, [], rfl, hd⟩, ?_, ?_, ?_, ?_, Or.inl ⟨by simp, ?_, g5, g6⟩⟩, fun _ => by simpa using hd⟩,
      f1, f2, f3, f4, f5, f6⟩
    · rw [← (nil_or_head _).mp hE.zeros]; simp
    · simp; omega
    · dsimp only; rw [g1, hdv]; simp
    · dsimp only; rw [g3]; simp
    · dsimp only
      rw [g3, g4, f1, hinv.dot]; simp
    · dsimp only; rw [g2]; simp
  · obtain ⟨ds1, tail1, hC, hor⟩ := flush_core hN hκ hDlen hnfle
    obtain ⟨h1, ⟨d0, ds0, h2, h2'⟩, h3, h4, h5, h6, h7⟩ := hC
    have hdl : (flushZeros κ st).digits.length = ds1.length := by rw [h4]; simp
    unfold pushDigit
    rcases hor with hfull | ⟨hlt, rfl⟩
    · rw [if_neg (by rw [hdl]; omega)]
      have gain' : (flushZeros κ st).powGain + (if (flushZeros κ st).dotSet then 0 else 1) ≤
          (tail1 ++ [d]).length := by simp; split_ifs <;> omega
      have count' : (flushZeros κ st).powGain + (if (flushZeros κ st).dotSet then 0 else 1) +
          (n.fracDigits.length + if n.frac.isSome then 1 else 0) =
          (tail1 ++ [d]).length + (flushZeros κ st).fracCount := by
        rw [f1, hinv.dot]; simp; split_ifs <;> omega
      have hnz : ¬ ∀ x ∈ tail1 ++ [d], x = 0 := fun h => hd (h d (by simp))
      rcases h7 with ⟨k1, k2, k3, k4⟩ | ⟨k1, k2, k3, k4⟩
      · -- compute the fraction
        simp only [k3, Bool.not_false, if_true, hdl, hfull, f4]
        have htl : tail1.length ≤ (allDigits n).length := by rw [h1]; simp; omega
        rw [k2, subSz_eq (by omega) (by omega), show κ + tail1.length - κ = tail1.length by omega]
        have hple : tail1.length ≤ st.pos := by have := hinv.pos; omega
        rw [if_neg (by omega)]
        have htz := (nil_or_head tail1).mp k1
        have hD : allDigits n = (List.replicate z 0 ++ ds1) ++ List.replicate tail1.length 0 := by
          rw [← htz, h1]; simp
        have htext := hinv.text
        rw [hinv.pos] at htext
        have hw := tail_window hD htext
        rw [← hinv.pos] at hw
        have hex : ∃ tv, tv < 10 ^ 4 ∧
            extractFractionDigits mem 4 (str + st.pos - tail1.length) = .ok tv ∧
            FracInv mem (str + st.pos + 1) (n.fracDigits.length + if n.frac.isSome then 1 else 0)
              (flushZeros κ st).dotSet (tail1 ++ [d]) (convertNumerator 4 7 tv % 256) := by
          rw [f1, hinv.dot]
          rcases hw with ⟨hw, hnf⟩ | ⟨hfs, hk, j, R, hw⟩
          · have hstop : Stops mem (str + st.pos - tail1.length) := by
              obtain ⟨a, b, c1, c2, c3⟩ := hst
              exact ⟨a, b, by omega, c2, c3⟩
            obtain ⟨tv, t1, t2⟩ := extractFraction_total hstop
            refine ⟨tv, t1, t2, tv, t1, rfl, Or.inr ⟨_, t2, Or.inl ⟨?_, ?_⟩⟩⟩
            · rw [hw, ← htz, drop_of_get hget]; simp
            · cases hfr : n.frac with
              | none => left; simp [Numeral.fracDigits, hfr]
              | some F =>
                right
                rcases hnf with h | h
                · rw [hfr] at h; cases h
                · simp; exact h
          · have hdot : ¬ IsDig '.'.toNat := by unfold IsDig; decide
            have t2 := extractFraction_run hw hdot
            have htv : tail4 (List.replicate j 0) = 0 := by
              unfold tail4
              rw [List.take_replicate, digitsVal_append, digitsVal_replicate_zero,
                digitsVal_replicate_zero]; simp
            rw [htv] at t2
            refine ⟨0, by norm_num, t2, 0, by norm_num, rfl, Or.inl ⟨rfl, hfs, ?_, ?_⟩⟩
            · rw [hfs]; simp; omega
            · rw [hfs]
              simp only [if_true, List.length_append, List.length_singleton]
              rw [show tail1.length + 1 - (n.fracDigits.length + 1) = tail1.length - n.fracDigits.length by omega,
                List.take_append_of_le_length (by omega)]
              exact fun x hx => k1 x (List.mem_of_mem_take hx)
        obtain ⟨tv, t1, t2, t3⟩ := hex
        simp only [fractionDecimalDigits, fractionBinaryDigits, t2, ok_bind, pure_bind']
        refine ⟨_, rfl, ⟨z, ds1, tail1 ++ [d], ⟨by rw [h1]; simp, ⟨d0, ds0, h2, h2'⟩, h3, h4, gain', count',
          Or.inr ⟨hfull, hnz, rfl, t3⟩⟩, fun h => absurd h hnz⟩, f1, f2, f3, rfl, f5, f6⟩
      · simp only [k3, Bool.not_true, Bool.false_eq_true, if_false, pure_bind']
        refine ⟨_, rfl, ⟨z, ds1, tail1 ++ [d], ⟨by rw [h1]; simp, ⟨d0, ds0, h2, h2'⟩, h3, h4, gain', count',
          Or.inr ⟨hfull, hnz, rfl, by have := k4.digit hget; rwa [f1, hinv.dot] at this ⊢⟩⟩, fun h => absurd h hnz⟩, f1, f2, f3, f4, f5, f6⟩
    · rw [if_pos (by rw [hdl]; exact hlt)]
      rcases h7 with ⟨k1, k2, k3, k4⟩ | ⟨k1, -⟩
      swap
      · omega
      simp only [List.length_nil] at h5 k2 h6
      refine ⟨_, rfl, ⟨z, ds1 ++ [d], [], ⟨?_, ⟨d0, ds0 ++ [d], by rw [h2]; rfl, h2'⟩, ?_, ?_, ?_, ?_,
        Or.inl ⟨by simp, ?_, k3, k4⟩⟩, fun _ => by simpa using hd⟩, f1, f2, f3, f4, f5, f6⟩
      · rw [h1]; simp
      · simp; omega
      · dsimp only; rw [h4, hdv]; simp
      · exact h5
      · dsimp only
        rw [f1, hinv.dot]; simp only [List.length_nil]; omega
      · exact k2

theorem digits10_le (T : FloatType) : 0 < T.digits10 ∧ T.digits10 ≤ 19 := by cases T <;> decide

/-- A digit. -/
theorem step_digit {T : FloatType} {mem : List Nat} {str : Nat} {n : Numeral} {st : PState}
    {d : Fin 10} (hinv : Inv T.digits10 mem str n st) (hpos : st.pos ≤ 2049)
    (hget : mem[str + st.pos]? = some (digitChar d)) (hst : Stops mem (str + st.pos)) :
    ∃ st', parseStep T mem str st = .ok st' ∧ Inv T.digits10 mem str (addDigit n d) st' := by
  have hstop : st.stop = false := by rw [hinv.stop]; simp; omega
  obtain ⟨hκ0, hκ⟩ := digits10_le T
  unfold parseStep
  rw [rd_of hget, ok_bind]
  have hscan := scanText_add n d
  have hsl : (scanText (addDigit n d)).length = st.pos + 1 := by rw [hscan, hinv.pos]; simp
  have htext : mem.drop str = scanText (addDigit n d) ++ mem.drop (str + (st.pos + 1)) := by
    rw [hscan, hinv.text, drop_of_get hget]; simp [Nat.add_assoc]
  by_cases hd : d = 0
  · subst hd
    unfold parseSwitch
    rw [if_pos (by rfl), pure_bind']
    have fields : (stepZero st).pos = st.pos ∧ (stepZero st).stop = st.stop ∧
        (stepZero st).dotSet = st.dotSet ∧ (stepZero st).signSet = st.signSet ∧
        (stepZero st).sign = st.sign ∧ (stepZero st).special = st.special := by
      unfold stepZero; split_ifs <;> simp
    obtain ⟨f1, f2, f3, f4, f5, f6⟩ := fields
    refine ⟨_, rfl, ?_⟩
    refine ⟨by dsimp only; rw [f1, hsl], by dsimp only; rw [f1]; exact htext, ?_, by dsimp only; omega,
      by dsimp only; rw [f3, add_frac, hinv.dot], by dsimp only; rw [f4, add_sign, hinv.signSet],
      by dsimp only; rw [f5, add_sign, hinv.sign], by dsimp only; rw [f6, hinv.special], ?_⟩
    · dsimp only; rw [f1, f2, hstop]; simp [maximumOffset]; omega
    · rw [allDigits_add, nf_add]
      dsimp only
      rcases hinv.core with hE | ⟨z, ds, tail, hN, hlast⟩
      · left
        obtain ⟨e1, e2, e3, e4, e5, e6, e7⟩ := hE
        have hz : ∀ x ∈ allDigits n ++ [0], x = 0 := by
          intro x hx
          rcases List.mem_append.mp hx with h | h
          · exact e1 x h
          · simpa using h
        unfold stepZero
        cases hdot : st.dotSet
        · have : n.frac.isSome = false := by rw [← hinv.dot, hdot]
          simp only [e2, List.isEmpty_nil, Bool.not_true, Bool.or_self, Bool.false_eq_true, if_false]
          exact ⟨hz, rfl, by simp [this, e3], e4, e5, e6, e7⟩
        · have : n.frac.isSome = true := by rw [← hinv.dot, hdot]
          simp only [Bool.or_true, if_true]
          exact ⟨hz, e2, by simp [this, e3], by simp [e4], e5, e6, e7⟩
      · right
        obtain ⟨h1, ⟨d0, ds0, h2, h2'⟩, h3, h4, h5, h6, h7⟩ := hN
        refine ⟨z, ds, tail ++ [0], ?_, fun h => hlast (fun x hx => h x (by simp [hx]))⟩
        have hne : st.digits.isEmpty = false := by rw [h4, h2]; rfl
        unfold stepZero
        simp only [hne, Bool.not_false, Bool.true_or, if_true]
        refine ⟨by rw [h1]; simp, ⟨d0, ds0, h2, h2'⟩, h3, h4, ?_, ?_, ?_⟩
        · simp only [List.length_append, List.length_singleton]; split_ifs <;> omega
        · rw [← hinv.dot]
          simp only [List.length_append, List.length_singleton]; split_ifs <;> omega
        · rcases h7 with ⟨k1, k2, k3, k4⟩ | ⟨k1, k2, k3, k4⟩
          · left
            refine ⟨?_, by simp [k2], k3, k4⟩
            intro x hx
            rcases List.mem_append.mp hx with h | h
            · exact k1 x h
            · simpa using h
          · right
            refine ⟨k1, fun h => k2 (fun x hx => h x (by simp [hx])), k3, ?_⟩
            have := k4.digit hget
            rw [← hinv.dot]; exact this
  · have hne : digitChar d ≠ '0'.toNat := by
      unfold digitChar; have : d.val ≠ 0 := fun h => hd (Fin.ext h)
      omega
    have hrange : '1'.toNat ≤ digitChar d ∧ digitChar d ≤ '9'.toNat := by
      unfold digitChar; have : d.val ≠ 0 := fun h => hd (Fin.ext h)
      have := d.isLt
      show 49 ≤ 48 + d.val ∧ 48 + d.val ≤ 57
      omega
    unfold parseSwitch
    rw [if_neg hne, if_pos hrange]
    obtain ⟨st', h1, ⟨z, ds, tail, h2, h2l⟩, g1, g2, g3, g4, g5, g6⟩ := push_ok hd hκ0 hκ hinv hpos hget hst
    rw [h1, ok_bind]
    refine ⟨_, rfl, ?_⟩
    refine ⟨by dsimp only; rw [g4, hsl], by dsimp only; rw [g4]; exact htext, ?_, by dsimp only; omega,
      by dsimp only; rw [g1, add_frac, hinv.dot], by dsimp only; rw [g2, add_sign, hinv.signSet],
      by dsimp only; rw [g6, add_sign, hinv.sign], by dsimp only; rw [g5, hinv.special], ?_⟩
    · dsimp only; rw [g3, g4, hstop]; simp [maximumOffset]; omega
    · rw [allDigits_add, nf_add]
      right
      refine ⟨z, ds, tail, ?_, h2l⟩
      dsimp only
      rw [g4]
      obtain ⟨q1, q2, q3, q4, q5, q6, q7⟩ := h2
      exact ⟨q1, q2, q3, q4, q5, q6, q7⟩

end Floaxie
