import Verif.Proof.Scan

/-! # The result of `parse_digits` -/

namespace Floaxie

open Spec FloatType

/-- What is read from a numeral: kept digits `P` (at most `κ` of them), decimal
exponent `K` of the last kept digit, and a 7-bit fraction obtained from the
leading digits `tv` (out of `10^4`) of the discarded ones. -/
def Reads (κ : Nat) (n : Numeral) (P : Nat) (K : Int) (frac : Nat) : Prop :=
  ((∀ d ∈ allDigits n, d = 0) ∧ P = 0 ∧ K = 0 ∧ frac = 0) ∨
  ∃ z ds tail, allDigits n = List.replicate z 0 ++ (ds ++ tail) ∧ (∃ d ds', ds = d :: ds' ∧ d ≠ 0) ∧
    ds.length ≤ κ ∧ P = digitsVal ds ∧ K = (tail.length : Int) - n.fracDigits.length ∧
    (((∀ d ∈ tail, d = 0) ∧ frac = 0 ∧ ds.getLast? ≠ some 0) ∨
     (ds.length = κ ∧ (¬ ∀ d ∈ tail, d = 0) ∧ ∃ d t r, tail = d :: t ∧ r < 1000 ∧
        frac = convertNumerator 4 7 (d.val * 1000 + r) % 256))

theorem extract_head {mem : List Nat} {q tv : Nat} {d : Fin 10} {R : List Nat}
    (h : mem.drop q = digitChar d :: R) (he : extractFractionDigits mem 4 q = .ok tv) :
    ∃ r, r < 1000 ∧ tv = d.val * 1000 + r := by
  unfold extractFractionDigits at he
  rw [fractionDigits, rd_of (get_of_drop h), ok_bind, if_pos (show '0'.toNat ≤ digitChar d ∧ digitChar d ≤ '9'.toNat from isDig_digitChar d)] at he
  cases hf : fractionDigits mem 3 (q + 1) with
  | error e => rw [hf] at he; cases he
  | ok l =>
    rw [hf, ok_bind, pure_bind'] at he
    -- the other digits
    have hl : l.length = 3 ∧ ∀ x ∈ l, x < 10 := by
      have gen : ∀ (n i : Nat) (l : List Nat), fractionDigits mem n i = .ok l →
          l.length = n ∧ ∀ x ∈ l, x < 10 := by
        intro n
        induction n with
        | zero => intro i l h; cases h; simp
        | succ n ih =>
          intro i l h
          unfold fractionDigits at h
          cases hr : rd mem i with
          | error e => rw [hr] at h; cases h
          | ok c =>
            rw [hr, ok_bind] at h
            split_ifs at h with hd
            · cases hf : fractionDigits mem n (i + 1) with
              | error e => rw [hf] at h; cases h
              | ok l' =>
                rw [hf, ok_bind] at h
                cases h
                obtain ⟨h1, h2⟩ := ih _ _ hf
                refine ⟨by simp [h1], ?_⟩
                intro x hx
                rcases List.mem_cons.mp hx with rfl | hx
                · have := hd.1; have := hd.2
                  have a : 48 ≤ c := hd.1
                  have b : c ≤ 57 := hd.2
                  show c - 48 < 10
                  omega
                · exact h2 x hx
            · cases h
              refine ⟨by simp, ?_⟩
              intro x hx
              rw [List.eq_of_mem_replicate hx]; norm_num
      exact gen 3 _ l hf
    obtain ⟨hl3, hlt⟩ := hl
    match l, hl3 with
    | [a, b, c], _ =>
      have ha := hlt a (by simp)
      have hb := hlt b (by simp)
      have hc := hlt c (by simp)
      have hd : digitChar d - '0'.toNat = d.val := by simp [digitChar]
      have hdlt := d.isLt
      rw [hd] at he
      simp only [List.reverse_cons, List.reverse_nil, List.nil_append, List.cons_append,
        accumulate, seqPow] at he
      norm_num [Bind.bind, Except.bind, pure, Except.pure] at he
      refine ⟨100 * a + 10 * b + c, by omega, ?_⟩
      rw [← he]
      omega

theorem fracInv_head {mem : List Nat} {q nf : Nat} {dot : Bool} {tail : List (Fin 10)} {frac : Nat}
    (h : FracInv mem q nf dot tail frac) (hne : tail ≠ []) :
    ∃ d t r, tail = d :: t ∧ r < 1000 ∧ frac = convertNumerator 4 7 (d.val * 1000 + r) % 256 := by
  obtain ⟨tv, h1, h2, h3⟩ := h
  rcases h3 with ⟨h4, -, h5, h6⟩ | ⟨q0, h4, ⟨h5, -⟩ | ⟨u, v, R, h5, rfl, -, -, h7⟩⟩
  · cases tail with
    | nil => exact absurd rfl hne
    | cons d t =>
      have hd : d = 0 := by
        apply h6
        obtain ⟨j, hj⟩ : ∃ j, (d :: t).length - nf = j + 1 := ⟨(d :: t).length - nf - 1, by omega⟩
        rw [hj]; simp
      exact ⟨d, t, 0, rfl, by norm_num, by rw [h2, h4, hd]; rfl⟩
  · cases tail with
    | nil => exact absurd rfl hne
    | cons d t =>
      obtain ⟨r, hr, htv⟩ := extract_head h5 h4
      exact ⟨d, t, r, rfl, hr, by rw [h2, htv]⟩
  · cases u with
    | nil => exact absurd rfl h5
    | cons d t =>
      obtain ⟨r, hr, htv⟩ := extract_head h7 h4
      exact ⟨d, t ++ v, r, rfl, hr, by rw [h2, htv]⟩

/-- The discarded digits the 7-bit fraction is computed from: those before the
point if there are such, else all of them. -/
def fracSource (nf : Nat) (tail : List (Fin 10)) : List (Fin 10) :=
  if tail.length ≤ nf then tail else tail.take (tail.length - nf)

theorem tail4_zero {u : List (Fin 10)} (h : ∀ d ∈ u, d = 0) : tail4 u = 0 := by
  unfold tail4
  rw [(nil_or_head u).mp h, List.take_replicate, digitsVal_append, digitsVal_replicate_zero,
    digitsVal_replicate_zero]; simp

/-- At the end of the digits the fraction is a function of the numeral. -/
theorem fracInv_exact {mem : List Nat} {q nf c : Nat} {dot : Bool} {tail : List (Fin 10)} {frac : Nat}
    (h : FracInv mem q nf dot tail frac) (hc : mem[q]? = some c) (hd : ¬ IsDig c) :
    frac = convertNumerator 4 7 (tail4 (fracSource nf tail)) % 256 := by
  obtain ⟨tv, h1, h2, h3⟩ := h
  have hdot : ¬ IsDig '.'.toNat := by unfold IsDig; decide
  rcases h3 with ⟨h4, -, h5, h6⟩ | ⟨q0, h4, ⟨h5, h6⟩ | ⟨u, v, R, h5, rfl, h7, -, h9⟩⟩
  · unfold fracSource
    rw [if_neg (by omega), tail4_zero h6, h2, h4]
  · rw [drop_of_get hc] at h5
    rw [extractFraction_run h5 hd, Except.ok.injEq] at h4
    have : fracSource nf tail = tail := by
      unfold fracSource
      rcases h6 with ⟨-, rfl⟩ | ⟨-, h6⟩
      · simp
      · rw [if_pos h6]
    rw [this, h2, h4]
  · rw [extractFraction_run h9 hdot, Except.ok.injEq] at h4
    have : fracSource nf (u ++ v) = u := by
      unfold fracSource
      have : 0 < u.length := List.length_pos_iff.mpr h5
      rw [if_neg (by simp; omega), ← h7]; simp
    rw [this, h2, h4]

theorem toInt32_sub {a b : Nat} (ha : a < 2 ^ 31) (hb : b < 2 ^ 31) :
    toInt32 (subSz a b) = (a : Int) - b := by
  unfold toInt32 subSz
  rw [Nat.mod_mod_of_dvd _ (by norm_num)]
  by_cases h : b ≤ a
  · rw [show a + 2 ^ 64 - b = (a - b) + 2 ^ 32 * 2 ^ 32 by omega, Nat.add_mul_mod_self_left,
      Nat.mod_eq_of_lt (by omega)]
    rw [if_pos (by omega)]; omega
  · rw [show a + 2 ^ 64 - b = (2 ^ 32 - (b - a)) + 2 ^ 32 * (2 ^ 32 - 1) by omega,
      Nat.add_mul_mod_self_left, Nat.mod_eq_of_lt (by omega)]
    rw [if_neg (by omega)]; omega

theorem pow_digits10 (T : FloatType) : 10 ^ T.digits10 < 2 ^ T.W := by cases T <;> decide

theorem accumulate_digits (T : FloatType) (ds : List (Fin 10)) (h : ds.length ≤ T.digits10) :
    accumulate T.W T.digits10 (ds.map Fin.val).reverse 0 0 = .ok (digitsVal ds) := by
  have h1 := digitsVal_lt ds
  have h2 : 10 ^ ds.length ≤ 10 ^ T.digits10 := Nat.pow_le_pow_right (by norm_num) h
  have h3 := pow_digits10 T
  have := accumulate_ok T.W T.digits10 ds.reverse 0 0 (by simp; omega)
    (by rw [List.reverse_reverse]; omega)
    (by intro i hi; exact lt_of_le_of_lt (Nat.pow_le_pow_right (by norm_num) hi) h3)
  rw [List.reverse_reverse, List.map_reverse] at this
  rw [this]; congr 1; omega

/-- The final computation of `parse_digits` on the state reached. -/
theorem finish {T : FloatType} {mem : List Nat} {str : Nat} {n : Numeral} {st : PState}
    (h : Inv T.digits10 mem str n st) :
    ∃ P K, accumulate T.W T.digits10 st.digits.reverse 0 0 = .ok P ∧
      toInt32 (subSz st.powGain st.fracCount) = K ∧ Reads T.digits10 n P K st.frac := by
  have hlen := scanText_length n
  have hb := h.bound
  rw [h.pos] at hb
  have hnf : n.fracDigits.length ≤ (allDigits n).length := by simp [allDigits]
  rcases h.core with ⟨e1, e2, e3, e4, e5, e6, e7⟩ | ⟨z, ds, tail, ⟨h1, h2, h3, h4, h5, h6, h7⟩, hlast⟩
  · refine ⟨0, 0, by rw [e2]; rfl, by rw [e4, e5]; rfl, Or.inl ⟨e1, rfl, rfl, e7⟩⟩
  · have htl : tail.length ≤ (allDigits n).length := by rw [h1]; simp; omega
    refine ⟨digitsVal ds, _, by rw [h4]; exact accumulate_digits T ds h3, rfl,
      Or.inr ⟨z, ds, tail, h1, h2, h3, rfl, ?_, ?_⟩⟩
    · rw [toInt32_sub (by omega) (by omega)]; omega
    · rcases h7 with ⟨k1, -, -, k4⟩ | ⟨k1, k2, k3, k4⟩
      · exact Or.inl ⟨k1, k4, hlast k1⟩
      · exact Or.inr ⟨k1, k2, fracInv_head k4 (fun h => k2 (by rw [h]; simp))⟩

/-- What is read from a numeral that ends within the limit, as a function of its
digits and the position of the point. -/
def ReadsExact (κ : Nat) (n : Numeral) (P : Nat) (K : Int) (frac : Nat) : Prop :=
  ((∀ d ∈ allDigits n, d = 0) ∧ P = 0 ∧ K = 0 ∧ frac = 0) ∨
  ∃ z ds tail, allDigits n = List.replicate z 0 ++ (ds ++ tail) ∧ (∃ d ds', ds = d :: ds' ∧ d ≠ 0) ∧
    ds.length ≤ κ ∧ P = digitsVal ds ∧ K = (tail.length : Int) - n.fracDigits.length ∧
    (((∀ d ∈ tail, d = 0) ∧ frac = 0 ∧ ds.getLast? ≠ some 0) ∨
     (ds.length = κ ∧ (¬ ∀ d ∈ tail, d = 0) ∧
        frac = convertNumerator 4 7 (tail4 (fracSource n.fracDigits.length tail)) % 256))

theorem finish_exact {T : FloatType} {mem : List Nat} {str c : Nat} {n : Numeral} {st : PState}
    (h : Inv T.digits10 mem str n st) (hc : mem[str + st.pos]? = some c) (hd : ¬ IsDig c) :
    ∃ P K, accumulate T.W T.digits10 st.digits.reverse 0 0 = .ok P ∧
      toInt32 (subSz st.powGain st.fracCount) = K ∧ ReadsExact T.digits10 n P K st.frac := by
  have hlen := scanText_length n
  have hb := h.bound
  rw [h.pos] at hb
  have hnf : n.fracDigits.length ≤ (allDigits n).length := by simp [allDigits]
  rcases h.core with ⟨e1, e2, e3, e4, e5, e6, e7⟩ | ⟨z, ds, tail, ⟨h1, h2, h3, h4, h5, h6, h7⟩, hlast⟩
  · refine ⟨0, 0, by rw [e2]; rfl, by rw [e4, e5]; rfl, Or.inl ⟨e1, rfl, rfl, e7⟩⟩
  · have htl : tail.length ≤ (allDigits n).length := by rw [h1]; simp; omega
    refine ⟨digitsVal ds, _, by rw [h4]; exact accumulate_digits T ds h3, rfl,
      Or.inr ⟨z, ds, tail, h1, h2, h3, rfl, ?_, ?_⟩⟩
    · rw [toInt32_sub (by omega) (by omega)]; omega
    · rcases h7 with ⟨k1, -, -, k4⟩ | ⟨k1, k2, k3, k4⟩
      · exact Or.inl ⟨k1, k4, hlast k1⟩
      · exact Or.inr ⟨k1, k2, fracInv_exact k4 hc hd⟩

theorem ok_dpr {α : Type} (a : α) : (pure a : M α) = .ok a := rfl

/-- `parse_digits` on the text of a numeral followed by a character ending it. -/
theorem parseDigits_num {T : FloatType} {mem : List Nat} {str : Nat} {n : Numeral} {c : Nat} {R : List Nat}
    (hm : mem.drop str = scanText n ++ c :: R) (hc : Ender n c) (hl : (scanText n).length ≤ 2049) :
    ∃ P K frac, Reads T.digits10 n P K frac ∧ ReadsExact T.digits10 n P K frac ∧
      parseDigits T mem str = .ok ⟨P, K, str + (scanText n).length,
        frac, .no, !n.isNeg⟩ := by
  obtain ⟨st, hi, hp, hg, hloop⟩ := scan_num (T := T) hm hc hl
  obtain ⟨P, K, h1, h2, h3⟩ := finish hi
  obtain ⟨P', K', h1', h2', h3'⟩ := finish_exact hi hg hc.dig
  rw [h1, Except.ok.injEq] at h1'
  rw [h2] at h2'
  subst h1' h2'
  refine ⟨P, K, st.frac, h3, h3', ?_⟩
  unfold parseDigits
  rw [hloop, ok_bind]
  dsimp only
  rw [h1, ok_bind, h2, hi.special, hi.sign, Nat.add_sub_cancel, hi.pos, scanText_noExp]
  show Except.ok _ = Except.ok _
  congr 2
  unfold Numeral.isNeg noExp
  dsimp only
  cases n.sign with
  | none => rfl
  | some b => cases b <;> rfl

theorem isNeg_sign (n : Numeral) : decide (n.sign ≠ some true) = !n.isNeg := by
  unfold Numeral.isNeg
  cases n.sign with
  | none => rfl
  | some b => cases b <;> rfl

/-- How `parse_digits` can end on a NUL-terminated string. -/
inductive DigitsResult (T : FloatType) (mem : List Nat) (str : Nat) : DigitParseResult → Prop
  /-- a numeral, then a character that ends it -/
  | num (n : Numeral) (P : Nat) (K : Int) (frac c : Nat) : n.exp = none →
      (scanText n).length ≤ 2049 →
      mem.drop str = scanText n ++ mem.drop (str + (scanText n).length) →
      mem[str + (scanText n).length]? = some c → Ender n c → Reads T.digits10 n P K frac →
      DigitsResult T mem str ⟨P, K, str + (scanText n).length,
        frac, .no, !n.isNeg⟩
  /-- the limit of 2050 characters -/
  | limit (n : Numeral) (P : Nat) (K : Int) (frac : Nat) : n.exp = none →
      (scanText n).length = 2050 →
      mem.drop str = scanText n ++ mem.drop (str + 2050) → Reads T.digits10 n P K frac →
      DigitsResult T mem str ⟨P, K, str + 2049,
        frac, .no, !n.isNeg⟩
  /-- `n` or `i` after the sign -/
  | word (s : Option Bool) (isNan : Bool) (eaten c : Nat) :
      mem.drop str = signText s ++ mem.drop (str + (signText s).length) →
      mem[str + (signText s).length]? = some c →
      (if isNan then c = 'n'.toNat ∨ c = 'N'.toNat else c = 'i'.toNat ∨ c = 'I'.toNat) →
      (if isNan then eatNan mem (str + (signText s).length + 1)
        else eatInf mem (str + (signText s).length + 1)) = .ok eaten →
      Nul mem (str + (signText s).length + 1 + eaten) →
      DigitsResult T mem str ⟨0, 0, str + (signText s).length + 1 + eaten,
        0, if eaten ≠ 0 then (if isNan then .nan else .inf) else .no, decide (s ≠ some true)⟩

theorem inv_none_exp {κ : Nat} {mem : List Nat} {str : Nat} {n : Numeral} {st : PState}
    (h : Inv κ mem str n st) : Inv κ mem str (noExp n) st :=
  ⟨h.1, h.2, h.3, h.4, h.5, h.6, h.7, h.8, h.9⟩

theorem parseDigits_total {T : FloatType} {mem : List Nat} {str : Nat} (h : Nul mem str) :
    ∃ r, parseDigits T mem str = .ok r ∧ DigitsResult T mem str r := by
  obtain ⟨st, h1, h2⟩ := loop_total (T := T) (maximumOffset + 3) _ _ (inv_init T.digits10 mem str) rfl
    (Or.inl h) (by decide)
  unfold parseDigits
  rw [h1, ok_bind]
  cases h2 with
  | num n st c hi hp hg hc =>
    have hi' := inv_none_exp hi
    obtain ⟨P, K, g1, g2, g3⟩ := finish hi'
    dsimp only
    rw [g1, ok_bind, g2, hi.special, hi.sign, Nat.add_sub_cancel, isNeg_sign]
    refine ⟨_, rfl, ?_⟩
    have hpos : st.pos = (scanText (noExp n)).length := hi'.pos
    rw [hpos]
    have ht := hi'.text
    rw [hpos] at hp hg ht
    exact .num (noExp n) P K st.frac c rfl hp ht hg (ender_noExp hc) g3
  | limit n st hi hp =>
    have hi' := inv_none_exp hi
    obtain ⟨P, K, g1, g2, g3⟩ := finish hi'
    rw [g1, ok_bind, g2, hi.special, hi.sign, hp, isNeg_sign]
    refine ⟨_, rfl, ?_⟩
    have hpos : st.pos = (scanText (noExp n)).length := hi'.pos
    have ht := hi'.text
    rw [hp] at ht hpos
    exact .limit (noExp n) P K st.frac rfl hpos.symm ht g3
  | word s isNan eaten st hW =>
    obtain ⟨hi, ⟨c, hc, hcc⟩, he, hn⟩ := hW
    have hE : st.digits = [] ∧ st.powGain = 0 ∧ st.fracCount = 0 ∧ st.frac = 0 := by
      rcases hi.core with ⟨e1, e2, e3, e4, e5, e6, e7⟩ | ⟨z, ds, tail, hN, -⟩
      · exact ⟨e2, e4, e5, e7⟩
      · exfalso
        obtain ⟨d, ds', hd, -⟩ := hN.head
        have := hN.split
        simp [allDigits, Numeral.fracDigits, hd] at this
    obtain ⟨e1, e2, e3, e4⟩ := hE
    have hpos : st.pos = (signText s).length := by
      rw [hi.pos]; simp [scanText, Numeral.mantText]
    have ht := hi.text
    unfold wordState
    dsimp only
    rw [e1, e2, e3, e4, hi.sign]
    refine ⟨_, rfl, ?_⟩
    rw [show str + (st.pos + (eaten + 1) + 1 - 1) = str + st.pos + 1 + eaten by omega]
    rw [hpos] at hc he hn ht ⊢
    have := DigitsResult.word (T := T) s isNan eaten c (by
      rw [ht]; simp [scanText, Numeral.mantText]) hc hcc he hn
    exact this

end Floaxie
