import Verif.Proof.ParseDigits

/-! # Scanning up to the length limit -/

namespace Floaxie

open Spec FloatType

theorem run_digits' {T : FloatType} {mem : List Nat} {str : Nat} :
    ∀ (ds : List (Fin 10)) (n : Numeral) (st : PState) (R : List Nat),
      Inv T.digits10 mem str n st →
      mem.drop (str + st.pos) = ds.map digitChar ++ R → Stops mem (str + st.pos + ds.length) →
      st.pos + ds.length ≤ 2050 →
      ∃ st', (∀ fuel, parseLoop T mem str (fuel + ds.length) st = parseLoop T mem str fuel st') ∧
        Inv T.digits10 mem str (ds.foldl addDigit n) st' ∧ st'.pos = st.pos + ds.length := by
  intro ds
  induction ds with
  | nil => intro n st R hinv _ _ _; exact ⟨st, fun _ => rfl, hinv, rfl⟩
  | cons d ds ih =>
    intro n st R hinv hm hc hl
    rw [List.length_cons] at hl hc
    have hstop : st.stop = false := by rw [hinv.stop]; simp; omega
    have hget := get_of_drop (c := digitChar d) hm
    have hst : Stops mem (str + st.pos) := by
      obtain ⟨z, c, z1, z2, z3⟩ := hc
      exact ⟨z, c, by omega, z2, z3⟩
    obtain ⟨st1, h1, h2⟩ := step_digit hinv (by omega) hget hst
    have hp1 : st1.pos = st.pos + 1 := by rw [h2.pos, scanText_add, hinv.pos]; simp
    have hm' : mem.drop (str + st1.pos) = ds.map digitChar ++ R := by
      have := drop_of_get hget
      rw [hm, List.map_cons, List.cons_append, List.cons.injEq] at this
      rw [hp1, ← Nat.add_assoc, ← this.2]
    obtain ⟨st', h3, h4, h5⟩ := ih _ st1 R h2 hm' (by rw [hp1]; convert hc using 1; omega) (by omega)
    refine ⟨st', ?_, h4, by rw [h5, hp1, List.length_cons]; omega⟩
    intro fuel
    rw [List.length_cons, ← Nat.add_assoc, loop_step hstop h1, h3]

/-- Running over sign, digits and point of a numeral. -/
theorem scan_run {T : FloatType} {mem : List Nat} {str : Nat} {n : Numeral} {R : List Nat}
    (hm : mem.drop str = scanText n ++ R) (hst : Stops mem (str + (scanText n).length)) (hl : (scanText n).length ≤ 2050) :
    ∃ st, Inv T.digits10 mem str (noExp n) st ∧
      (∀ fuel, parseLoop T mem str (fuel + (scanText n).length) PState.init = parseLoop T mem str fuel st) := by
  have h0 := inv_init T.digits10 mem str
  -- the sign
  have hsign : ∃ st1, Inv T.digits10 mem str ⟨n.sign, [], none, none⟩ st1 ∧
      (∀ fuel, parseLoop T mem str (fuel + (signText n.sign).length) PState.init =
        parseLoop T mem str fuel st1) := by
    obtain ⟨s, i, f, e⟩ := n
    cases s with
    | none => exact ⟨_, h0, fun fuel => rfl⟩
    | some b =>
      have hget : mem[str + PState.init.pos]? = some (if b then '-'.toNat else '+'.toNat) := by
        apply get_of_drop (r := (⟨none, i, f, e⟩ : Numeral).mantText ++ R)
        show mem.drop str = _
        rw [hm]
        cases b <;> simp [scanText, signText, Numeral.mantText]
      obtain ⟨st1, h1, h2⟩ := step_sign h0 rfl hget
      refine ⟨st1, h2, fun fuel => ?_⟩
      have : (signText (some b)).length = 1 := by cases b <;> rfl
      dsimp only
      rw [this]
      exact loop_step rfl h1
  obtain ⟨st1, i1, l1⟩ := hsign
  have p1 := i1.pos
  have hs1 : (scanText ⟨n.sign, [], none, none⟩).length = (signText n.sign).length := by
    simp [scanText, Numeral.mantText]
  rw [hs1] at p1
  have hlen := scanText_length n
  have hint : ∃ R', mem.drop (str + st1.pos) = n.int.map digitChar ++ R' ∧
      (∀ f, n.frac = some f → R' = '.'.toNat :: (f.map digitChar ++ R)) := by
    rw [← List.drop_drop, hm, p1]
    obtain ⟨s, i, f, e⟩ := n
    simp only [scanText, Numeral.mantText, List.append_assoc, List.drop_left]
    cases f with
    | none => exact ⟨R, by simp, by simp⟩
    | some f =>
      refine ⟨'.'.toNat :: (f.map digitChar ++ R), by simp, ?_⟩
      intro f' hf
      simp only [Option.some.injEq] at hf
      subst hf
      rfl
  obtain ⟨R', hm1, hf1⟩ := hint
  have hdl : (allDigits n).length = n.int.length + n.fracDigits.length := by simp [allDigits]
  have hbig : (signText n.sign).length + n.int.length ≤ 2050 := by omega
  have hst1 : Stops mem (str + st1.pos + n.int.length) := by
    obtain ⟨z, d, z1, z2, z3⟩ := hst
    exact ⟨z, d, by omega, z2, z3⟩
  obtain ⟨st2, l2, i2, p2⟩ := run_digits' n.int _ st1 R' i1 hm1 hst1 (by omega)
  rw [foldl_int, List.nil_append] at i2
  have fin : ∃ st, Inv T.digits10 mem str (noExp n) st ∧
      (∀ fuel, parseLoop T mem str (fuel + (scanText n).length) PState.init =
        parseLoop T mem str fuel st) := by
    cases hfr : n.frac with
    | none =>
      have : noExp n = ⟨n.sign, n.int, none, none⟩ := by unfold noExp; rw [hfr]
      rw [this]
      refine ⟨st2, i2, fun fuel => ?_⟩
      have hF : n.fracDigits.length = 0 := by simp [Numeral.fracDigits, hfr]
      rw [hlen, hfr, hdl, hF, show fuel + ((signText n.sign).length + (n.int.length + 0) +
        if (none : Option (List (Fin 10))).isSome = true then 1 else 0) =
        (fuel + n.int.length) + (signText n.sign).length by simp; omega, l1, l2]
    | some f =>
      obtain rfl := hf1 f hfr
      have hF : n.fracDigits.length = f.length := by simp [Numeral.fracDigits, hfr]
      have htot : (scanText n).length = (signText n.sign).length + (n.int.length + f.length) + 1 := by
        rw [hlen, hdl, hF, hfr]; simp
      have hm2 : mem.drop (str + st2.pos) = '.'.toNat :: (f.map digitChar ++ R) := by
        rw [p2, ← Nat.add_assoc, ← List.drop_drop, hm1, List.drop_append_of_le_length (by simp)]
        rw [List.drop_eq_nil_of_le (by simp)]; rfl
      have hget2 := get_of_drop hm2
      obtain ⟨st3, s3, i3⟩ := step_dot i2 (by omega) rfl hget2
      have hstop2 : st2.stop = false := by rw [i2.stop]; simp; omega
      have p3 : st3.pos = st2.pos + 1 := by
        rw [i3.pos, i2.pos]; simp [scanText, addDot, Numeral.mantText]; omega
      have hm3 : mem.drop (str + st3.pos) = f.map digitChar ++ R := by
        have := drop_of_get hget2
        rw [hm2, List.cons.injEq] at this
        rw [p3, ← Nat.add_assoc, ← this.2]
      obtain ⟨st4, l4, i4, p4⟩ := run_digits' f _ st3 R i3 hm3 (by
        obtain ⟨z, d, z1, z2, z3⟩ := hst
        exact ⟨z, d, by omega, z2, z3⟩) (by omega)
      rw [addDot, foldl_frac, List.nil_append] at i4
      have : noExp n = ⟨n.sign, n.int, some f, none⟩ := by unfold noExp; rw [hfr]
      rw [this]
      refine ⟨st4, i4, fun fuel => ?_⟩
      rw [htot, show fuel + ((signText n.sign).length + (n.int.length + f.length) + 1) =
        (fuel + f.length + 1 + n.int.length) + (signText n.sign).length by omega, l1, l2,
        loop_step hstop2 s3, l4]
  exact fin

/-- `parse_digits` on a text of sign, digits and point that reaches the limit. -/
theorem parseDigits_limit {T : FloatType} {mem : List Nat} {str : Nat} {n : Numeral} {R : List Nat}
    (hm : mem.drop str = scanText n ++ R) (hst : Stops mem (str + (scanText n).length)) (hl : (scanText n).length = 2050) :
    ∃ P K frac, Reads T.digits10 n P K frac ∧
      parseDigits T mem str = .ok ⟨P, K, str + 2049, frac, .no, !n.isNeg⟩ := by
  obtain ⟨st, hi, hloop⟩ := scan_run (T := T) hm hst (by omega)
  have hpos := hi.pos
  rw [scanText_noExp, hl] at hpos
  obtain ⟨P, K, h1, h2, h3⟩ := finish hi
  refine ⟨P, K, st.frac, h3, ?_⟩
  have hstop : st.stop = true := by rw [hi.stop, hpos]; rfl
  have := hloop 1
  rw [hl, loop_stop T mem str 1 st hstop (by omega)] at this
  unfold parseDigits
  rw [show maximumOffset + 3 = 1 + 2050 from rfl, this, ok_bind, h1, ok_bind, h2, hi.special, hi.sign, hpos]
  have : decide ((noExp n).sign ≠ some true) = !n.isNeg := isNeg_sign n
  rw [this]
  rfl

end Floaxie
