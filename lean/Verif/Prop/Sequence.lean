import Verif.Prop.SignLoss
import Verif.Prop.RoundTrip
import Verif.Prop.Special

/-!
# C58: a sequence of numbers written to and read from one buffer

Two client loops as one writes them against the interface: `ftoa` returns the
length, `atof` the end of the text, and that is how a client advances.
-/

namespace Floaxie

open Spec FloatType

/-- Client code: `for (v : vs) { pos += ftoa(v, mem + pos); mem[pos++] = sep; } mem[pos] = 0;` -/
def writeAll (T : FloatType) (sep : Nat) : List Nat → List Nat → Nat → M (List Nat)
  | [], mem, pos => wr mem pos 0
  | v :: vs, mem, pos => do
    let (b, len) ← ftoa T v (mem.drop pos)
    let mem' ← wr (mem.take pos ++ b) (pos + len) sep
    writeAll T sep vs mem' (pos + len + 1)

/-- Client code: `k` times `{ r = atof<T>(p, &end); p = end + 1; }`; values and
statuses are collected. -/
def readAll (T : FloatType) (fb : Fallback) (mem : List Nat) : Nat → Nat → Nat → M (List (Nat × Status))
  | 0, _, _ => pure []
  | k + 1, errno, str => do
    let r ← atof T fb errno mem str
    let rest ← readAll T fb mem k r.errno (r.strEnd + 1)
    pure ((r.value, r.status) :: rest)

/-- A value that survives printing and parsing (C22, C08, C09): an infinity, plus zero, or a finite
nonzero value whose magnitude is not one of the listed powers of two. -/
def Survives (T : FloatType) (v : Nat) : Prop :=
  IsInf T v ∨ v = 0 ∨ (IsFinite T v ∧ value T v ≠ 0 ∧ ∀ j ∈ lostExponents T, |value T v| ≠ 2 ^ j)

/-- A character that cannot extend a number or the word "inf". -/
def Separator (c : Nat) : Prop :=
  ¬ ('0'.toNat ≤ c ∧ c ≤ '9'.toNat) ∧ c ≠ '.'.toNat ∧ c ≠ 'e'.toNat ∧ c ≠ 'E'.toNat ∧ c ≠ 'i'.toNat ∧ c ≠ 'I'.toNat

instance (c : Nat) : Decidable (Separator c) := by unfold Separator; infer_instance

/-- The texts one after another, a separator after each. -/
def joined (sep : Nat) (ts : List (List Nat)) : List Nat := ts.flatMap (· ++ [sep])

theorem wr_at {a r : List Nat} {x c : Nat} : wr (a ++ x :: r) a.length c = .ok (a ++ c :: r) := by
  unfold wr
  rw [if_pos (by simp)]
  simp

theorem writeAll_eq (T : FloatType) (sep : Nat) : ∀ (vs : List Nat) (ts : List (List Nat)) (mem : List Nat) (pos : Nat),
    List.Forall₂ (fun v t => v < 2 ^ T.W ∧ Prints T v t) vs ts → pos + (joined sep ts).length + 1 ≤ mem.length →
    writeAll T sep vs mem pos = .ok (mem.take pos ++ (joined sep ts ++ 0 :: mem.drop (pos + (joined sep ts).length + 1))) := by
  intro vs
  induction vs with
  | nil =>
    intro ts mem pos h hl
    cases h
    simp only [joined, List.flatMap_nil, List.length_nil, Nat.add_zero, List.nil_append] at hl ⊢
    unfold writeAll wr
    rw [if_pos (by omega), List.set_eq_take_append_cons_drop, if_pos (by omega)]
  | cons v vs ih =>
    intro ts mem pos h hl
    cases h with
    | @cons _ t _ ts h1 h2 =>
      have hj : joined sep (t :: ts) = t ++ sep :: joined sep ts := by simp [joined]
      have hjl : (joined sep (t :: ts)).length = t.length + 1 + (joined sep ts).length := by
        rw [hj]; simp; omega
      rw [hjl] at hl
      unfold writeAll
      rw [C02_ftoa_exact_fit T v t h1.1 h1.2 (mem.drop pos) (by rw [List.length_drop]; omega), ok_bind]
      dsimp only
      have hpos : (mem.take pos ++ t).length = pos + t.length := by
        rw [List.length_append, List.length_take]; omega
      rw [← List.append_assoc, ← hpos, wr_at, ok_bind, hpos, List.drop_drop]
      have htk : (mem.take pos ++ t ++ sep :: mem.drop (pos + (t.length + 1))) =
          (mem.take pos ++ t ++ [sep]) ++ mem.drop (pos + (t.length + 1)) := by simp
      have hlen : (mem.take pos ++ t ++ [sep]).length = pos + t.length + 1 := by
        rw [List.length_append, hpos]; rfl
      rw [htk, ih ts _ _ h2 (by rw [List.length_append, hlen, List.length_drop]; omega)]
      rw [← hlen, List.take_left, hlen, Nat.add_assoc (pos + t.length + 1), ← hlen, List.drop_length_add_append, List.drop_drop, hjl, hj]
      simp only [List.append_assoc, List.cons_append, List.nil_append, Except.ok.injEq]
      rw [show pos + (t.length + 1) + ((joined sep ts).length + 1) = pos + (t.length + 1 + (joined sep ts).length) + 1 by omega]

theorem isInf_bits {T : FloatType} {v v' : Nat} (h : IsInf T v) (h' : IsInf T v') (hs : signBit T v = signBit T v') : v = v' := by
  rw [bits_split h.1, bits_split h'.1, hs, isInf_abs h, isInf_abs h']

/-- A numeral that reads back in front of a terminator reads back in front of any separator. -/
theorem read_transfer {T : FloatType} {mem mem' : List Nat} {str str' : Nat} {n : Numeral} {v : Nat} {fb fb' : Fallback} {errno : Nat}
    (h : NumeralAt mem str n) (h' : NumeralAt mem' str' n) (h0 : n.absValue ≠ 0)
    (hid : ∀ b, RoundsTo T n.value b ↔ b = v)
    (hfb : FallbackReads T fb errno mem str n)
    (hr : ∃ r, atof T fb' errno mem' str' = .ok r ∧ r.value = v ∧ r.status = .success) :
    ∃ r, atof T fb errno mem str = .ok r ∧ r.value = v ∧ r.status = .success ∧ r.strEnd = str + n.text.length := by
  have hp := text_pos h.valid
  obtain ⟨w, K, -, w1, w2, k1, k2⟩ := krosh_place (T := T) h h' ⟨rfl, rfl, rfl⟩ h0
  obtain ⟨V, st, acc, t1, t2⟩ : ∃ V st acc, krosh T mem str = .ok ⟨V, str + n.text.length, st, acc⟩ ∧
      krosh T mem' str' = .ok ⟨V, str' + n.text.length, st, acc⟩ := by
    rcases kroshTail_total w1 w2 K with ⟨-, t⟩ | ⟨-, x, st, acc, -, t⟩
    · exact ⟨_, _, _, by rw [k1, t], by rw [k2, t]⟩
    · exact ⟨_, _, _, by rw [k1, t], by rw [k2, t]⟩
  obtain ⟨r, r1, r2, r3⟩ := hr
  refine ⟨_, atof_of_krosh t1 (by dsimp only; omega), ?_⟩
  rw [atof_of_krosh t2 (by dsimp only; omega), Except.ok.injEq] at r1
  cases acc with
  | true =>
    rw [if_pos rfl] at r1 ⊢
    subst r1
    exact ⟨r2, r3, rfl⟩
  | false =>
    rw [if_neg (by simp)]
    obtain ⟨f1, f2, f3⟩ := hfb _ (atof_of_krosh t1 (by dsimp only; omega)) rfl
    refine ⟨(hid _).mp f1, ?_, f2⟩
    dsimp only
    unfold checkErrno
    rw [if_pos f3]

/-- One number, in front of a separator. -/
theorem read_one {T : FloatType} {v sep : Nat} {t pre R : List Nat} {fb : Fallback} {errno : Nat} (hsep : Separator sep)
    (hv : Survives T v) (ht : Prints T v t) (hn : Nul (pre ++ (t ++ sep :: R)) pre.length)
    (hfb : ∀ n : Numeral, n.text = t → IsFinite T v → NumeralAt (pre ++ (t ++ sep :: R)) pre.length n →
      FallbackReads T fb errno (pre ++ (t ++ sep :: R)) pre.length n) :
    ∃ r, atof T fb errno (pre ++ (t ++ sep :: R)) pre.length = .ok r ∧ r.value = v ∧ r.status = .success ∧
      r.strEnd = pre.length + t.length := by
  obtain ⟨s1, s2, s3, s4, s5, s6⟩ := hsep
  rcases hv with hv | rfl | ⟨hf, h0, hj⟩
  · -- infinity
    have htx := prints_unique ht ((C08_ftoa_special T v).2.1 hv)
    have key : ∀ s : Option Bool, t = signText s ++ chars "inf" → (s = some true ↔ signBit T v = 1) →
        ∃ r, atof T fb errno (pre ++ (t ++ sep :: R)) pre.length = .ok r ∧ r.value = v ∧ r.status = .success ∧
          r.strEnd = pre.length + t.length := by
      intro s hts hsv
      have hw : LongestWord false (chars "inf") (chars "inf" ++ sep :: R) := by
        refine ⟨Word.inf _ (spells_inf.mpr ⟨_, _, _, rfl, by decide⟩), List.prefix_append _ _, ?_⟩
        intro b w' hb hpre
        cases hb with
        | nan t ht => obtain ⟨a, b, c, rfl, -⟩ := spells_nan.mp ht; simp [chars]
        | nanSeq t u ht hu =>
          exfalso
          obtain ⟨a, b, c, rfl, ha, -⟩ := spells_nan.mp ht
          obtain ⟨x, hx⟩ := hpre
          have := congrArg (fun l => l[0]?) hx
          simp [chars] at this
          rw [this] at ha
          revert ha; decide
        | inf t ht => obtain ⟨a, b, c, rfl, -⟩ := spells_inf.mp ht; simp [chars]
        | infinity t ht =>
          exfalso
          obtain ⟨a, b, c, d, s, rfl, h1, h2, h3, h4, -⟩ := spells_infinity.mp ht
          obtain ⟨x, hx⟩ := hpre
          have := congrArg (fun l => l[3]?) hx
          simp [chars] at this
          rw [this] at h4
          rcases h4 with h4 | h4
          · exact s5 h4
          · exact s6 h4
      obtain ⟨x, x1, -, x3, x4⟩ := C33_words T fb errno (pre ++ (t ++ sep :: R)) pre.length s false (chars "inf") (chars "inf" ++ sep :: R) hn
        (by rw [List.drop_left, hts, List.append_assoc]) hw
      refine ⟨_, x1, ?_, rfl, ?_⟩
      · refine isInf_bits (x3 rfl) hv ?_
        rw [x4]
        have hlt : signBit T v < 2 := Nat.mod_lt _ (by norm_num)
        by_cases hs : s = some true
        · rw [if_pos hs, hsv.mp hs]
        · rw [if_neg hs]
          have : ¬ signBit T v = 1 := fun c => hs (hsv.mpr c)
          omega
      · dsimp only; rw [hts, List.length_append]; omega
    split_ifs at htx with hs
    · exact key (some true) (by rw [htx]; rfl) (by simp [hs])
    · exact key none (by rw [htx]; rfl) (by simp [hs])
  · -- zero
    have hz : IsFinite T 0 := isFinite_of_lt (posInf_pos T)
    have hv0 : value T 0 = 0 := value_zero_iff.mpr (by simp [absPat])
    have htx := prints_unique ht ((C08_ftoa_special T 0).2.2 hz hv0)
    subst htx
    have hat : NumeralAt (pre ++ (chars "0" ++ sep :: R)) pre.length ⟨none, [0], none, none⟩ := by
      refine ⟨⟨by decide, (by intro e he; cases he)⟩, ⟨sep, R, (by rw [List.drop_left]; rfl), ⟨s1, fun _ => ⟨s3, s4, fun c => absurd c s2⟩, fun _ => s2⟩⟩,
        (by decide), (by intro e he; cases he), (by intro e he; cases he)⟩
    have := C34_zero T fb errno _ _ _ hat (by decide)
    exact ⟨_, this, by simp, rfl, rfl⟩
  · -- finite, nonzero
    obtain ⟨ds, k, h1, ⟨hne, -⟩, h3, h4, -, h5⟩ :=
      ftoa_main' T (absPat T v) (absPat_lt_posInf hf) (abs_ne_zero_of_value h0)
    have hl17 : ds.length ≤ 17 := by cases T <;> simp [maxSigDigits] at h1 <;> omega
    have htx : t = (fmtNumeral (decide (signBit T v = 1)) ds k).text := prints_unique ht (h5 v hf.1 rfl)
    generalize hnn : fmtNumeral (decide (signBit T v = 1)) ds k = n at htx
    subst htx
    have hat0 : NumeralAt (pre ++ (n.text ++ 0 :: R)) pre.length n := by
      rw [← hnn]; exact fmt_at _ hne hl17 h4 pre R
    have hat : NumeralAt (pre ++ (n.text ++ sep :: R)) pre.length n :=
      ⟨hat0.valid, ⟨sep, R, by rw [List.drop_left], s1, fun _ => ⟨s3, s4, fun c => absurd c s2⟩, fun _ => s2⟩,
        hat0.mantLen, hat0.expLen, hat0.exp⟩
    have hid := C01_reader T v hf h0 n ht
    have hx0 : n.absValue ≠ 0 := by
      intro hc
      obtain ⟨m, -, m1, m2⟩ := C01_ftoa_identifies T v hf h0
      have hnm : n = m := numeral_text_inj _ _ (prints_unique ht m1)
      rw [← hnm] at m2
      obtain ⟨-, i2⟩ := identifies_sign m2 h0
      have hv : n.value = 0 := by unfold Numeral.value; rw [hc]; simp
      exact i2 hv
    refine read_transfer (fb' := fun _ str _ => ⟨v, str + n.text.length, 0⟩) hat hat0 hx0 hid (hfb n rfl hf hat) ?_
    obtain ⟨r, r1, -, r3, r4, -⟩ := C22_round_trip T v hf h0 n ht (fun _ str _ => ⟨v, str + n.text.length, 0⟩) errno pre R
      (fun _ _ _ => ⟨(hid v).mpr rfl, rfl, (by decide : (0 : Nat) ≠ ERANGE)⟩)
    exact ⟨r, r1, r4 hj, r3⟩

theorem readAll_eq (T : FloatType) (fb : Fallback) (sep : Nat) (hsep : Separator sep) (rest : List Nat) :
    ∀ (vs : List Nat) (ts : List (List Nat)) (pre : List Nat) (errno : Nat),
    List.Forall₂ (fun v t => Survives T v ∧ Prints T v t) vs ts →
    (∀ errno str n v, v ∈ vs → IsFinite T v → Prints T v n.text → NumeralAt (pre ++ (joined sep ts ++ 0 :: rest)) str n →
      FallbackReads T fb errno (pre ++ (joined sep ts ++ 0 :: rest)) str n) →
    readAll T fb (pre ++ (joined sep ts ++ 0 :: rest)) vs.length errno pre.length = .ok (vs.map (fun v => (v, Status.success))) := by
  intro vs
  induction vs with
  | nil => intro ts pre errno _ _; rfl
  | cons v vs ih =>
    intro ts pre errno h hfb
    cases h with
    | @cons _ t _ ts h1 h2 =>
      have hj : joined sep (t :: ts) ++ 0 :: rest = t ++ sep :: (joined sep ts ++ 0 :: rest) := by simp [joined]
      rw [hj] at hfb ⊢
      have hn : Nul (pre ++ (t ++ sep :: (joined sep ts ++ 0 :: rest))) pre.length := by
        refine ⟨(pre ++ (t ++ sep :: joined sep ts)).length, by simp, ?_⟩
        rw [show pre ++ (t ++ sep :: (joined sep ts ++ 0 :: rest)) = (pre ++ (t ++ sep :: joined sep ts)) ++ 0 :: rest by simp]
        simp
      obtain ⟨r, r1, r2, r3, r4⟩ := read_one (fb := fb) (errno := errno) hsep h1.1 h1.2 hn
        (fun n hnt hf hat => hfb errno pre.length n v (by simp) hf (by rw [hnt]; exact h1.2) hat)
      rw [List.length_cons, readAll, r1, ok_bind]
      have hm : pre ++ (t ++ sep :: (joined sep ts ++ 0 :: rest)) = (pre ++ (t ++ [sep])) ++ (joined sep ts ++ 0 :: rest) := by simp
      have hl : r.strEnd + 1 = (pre ++ (t ++ [sep])).length := by rw [r4]; simp; omega
      rw [hm] at hfb ⊢
      rw [hl, ih ts _ r.errno h2 (fun errno str n v hv => hfb errno str n v (by simp [hv])), ok_bind, r2, r3]
      rfl

theorem survives_lt {T : FloatType} {v : Nat} (h : Survives T v) : v < 2 ^ T.W := by
  rcases h with h | rfl | h
  · exact h.1
  · positivity
  · exact h.1.1

theorem texts_exist {T : FloatType} : ∀ vs : List Nat, (∀ v ∈ vs, Survives T v) →
    ∃ ts : List (List Nat), List.Forall₂ (fun v t => Survives T v ∧ Prints T v t ∧ t.length + 1 ≤ maxBufferSize T) vs ts := by
  intro vs
  induction vs with
  | nil => intro _; exact ⟨[], .nil⟩
  | cons v vs ih =>
    intro h
    obtain ⟨ts, hts⟩ := ih (fun v hv => h v (by simp [hv]))
    have hv := h v (by simp)
    obtain ⟨t, h1, h2, h3⟩ := ftoa_total T v (survives_lt hv)
    exact ⟨t :: ts, .cons ⟨hv, prints_of_ok h1 h2 h3, h2⟩ hts⟩

theorem joined_length {T : FloatType} {sep : Nat} : ∀ {vs : List Nat} {ts : List (List Nat)},
    List.Forall₂ (fun v t => Survives T v ∧ Prints T v t ∧ t.length + 1 ≤ maxBufferSize T) vs ts →
    (joined sep ts).length ≤ vs.length * maxBufferSize T := by
  intro vs ts h
  induction h with
  | nil => simp [joined]
  | @cons v t vs ts h1 _ ih =>
    have : (joined sep (t :: ts)).length = t.length + 1 + (joined sep ts).length := by simp [joined]; omega
    rw [this, List.length_cons, Nat.add_mul]
    omega

/-- **C58.** Any number of values - infinities, plus zero, finite values other than the
listed powers of two - written one after another into a buffer with
`max_buffer_size` characters for each (and one for the end), with a separator after
each, are read back in order, each with status success, by advancing to the end
pointer; the fallback, if asked, has to read the texts of these values correctly. -/
theorem C58_sequence (T : FloatType) (sep : Nat) (hsep : Separator sep) (vs : List Nat) (hvs : ∀ v ∈ vs, Survives T v)
    (mem : List Nat) (pos : Nat) (hmem : pos + vs.length * maxBufferSize T + 1 ≤ mem.length) :
    ∃ mem', writeAll T sep vs mem pos = .ok mem' ∧ mem'.take pos = mem.take pos ∧ mem'.length = mem.length ∧
      ∀ (fb : Fallback) (errno : Nat),
        (∀ errno str n v, v ∈ vs → IsFinite T v → Prints T v n.text → NumeralAt mem' str n → FallbackReads T fb errno mem' str n) →
        readAll T fb mem' vs.length errno pos = .ok (vs.map (fun v => (v, Status.success))) := by
  obtain ⟨ts, hts⟩ := texts_exist vs hvs
  have hl := joined_length (sep := sep) hts
  have hpl : (mem.take pos).length = pos := by rw [List.length_take]; omega
  refine ⟨_, writeAll_eq T sep vs ts mem pos (hts.imp (fun _ _ h => ⟨survives_lt h.1, h.2.1⟩)) (by omega), ?_, ?_, ?_⟩
  · rw [List.take_append_of_le_length (by omega), List.take_of_length_le (by omega)]
  · simp only [List.length_append, List.length_cons, List.length_drop, hpl]; omega
  · intro fb errno hfb
    have := readAll_eq T fb sep hsep (mem.drop (pos + (joined sep ts).length + 1)) vs ts (mem.take pos) errno
      (hts.imp (fun _ _ h => ⟨h.1, h.2.1⟩)) hfb
    rwa [hpl] at this

theorem krosh_end {T : FloatType} {mem : List Nat} {str : Nat} {n : Numeral} (h : NumeralAt mem str n) :
    ∃ r, krosh T mem str = .ok r ∧ r.strEnd = str + consumed n := by
  by_cases h0 : n.absValue = 0
  · exact ⟨_, krosh_zero (T := T) h h0, by unfold consumed; rw [if_pos h0]; rfl⟩
  · obtain ⟨w, K, -, w1, w2, k1, -⟩ := krosh_place (T := T) h h ⟨rfl, rfl, rfl⟩ h0
    have hc : consumed n = n.text.length := by unfold consumed; rw [if_neg h0]
    rcases kroshTail_total w1 w2 K with ⟨-, t⟩ | ⟨-, x, st, acc, -, t⟩
    · exact ⟨_, by rw [k1, t], by rw [hc]⟩
    · exact ⟨_, by rw [k1, t], by rw [hc]⟩

/-- A printed numeral is read correctly as the value, and consumed. -/
theorem printed_reads {T : FloatType} {v : Nat} {n : Numeral} (hv : Survives T v) (hf : IsFinite T v) (hp : Prints T v n.text) :
    RoundsTo T n.value v ∧ consumed n = n.text.length := by
  have hz : IsFinite T 0 := isFinite_of_lt (posInf_pos T)
  by_cases h0 : value T v = 0
  · have h1 : n = ⟨none, [0], none, none⟩ := numeral_text_inj _ _ (prints_unique hp ((C08_ftoa_special T v).2.2 hf h0))
    have hv0 : v = 0 := by
      rcases hv with hv | hv | hv
      · exact absurd (isInf_abs hv) (by have := absPat_lt_posInf hf; omega)
      · exact hv
      · exact absurd h0 hv.2.1
    have hnv : n.value = 0 := by
      rw [h1]; simp [Numeral.value, Numeral.isNeg, Numeral.absValue, Numeral.fracDigits, digitsVal]
    have hz0 : value T 0 = 0 := value_zero_iff.mpr (by simp [absPat])
    refine ⟨?_, ?_⟩
    · obtain ⟨n', a1, a2⟩ := C09_ftoa_negative_zero T v hf
      have hnn : n = n' := numeral_text_inj _ _ (prints_unique hp a1)
      rw [← hnn] at a2
      refine (a2.mpr ?_ v).mpr rfl
      rw [hv0]; cases T <;> decide
    · unfold consumed
      split_ifs
      · rw [h1]; rfl
      · rfl
  · refine ⟨(C01_reader T v hf h0 n hp v).mpr rfl, ?_⟩
    unfold consumed
    rw [if_neg]
    intro hc
    obtain ⟨m, -, m1, m2⟩ := C01_ftoa_identifies T v hf h0
    have hnm : n = m := numeral_text_inj _ _ (prints_unique hp m1)
    rw [← hnm] at m2
    obtain ⟨-, i2⟩ := identifies_sign m2 h0
    apply i2
    unfold Numeral.value; rw [hc]; simp

open Classical in
/-- A fallback as C58 asks for exists (one that does it for all values at once). -/
theorem C58_fallback_exists (T : FloatType) : ∃ fb : Fallback, ∀ errno mem str n v, Survives T v → IsFinite T v →
    Prints T v n.text → NumeralAt mem str n → FallbackReads T fb errno mem str n := by
  let Ok : List Nat → Nat → Numeral × Nat → Prop := fun mem str p =>
    Survives T p.2 ∧ IsFinite T p.2 ∧ Prints T p.2 p.1.text ∧ NumeralAt mem str p.1
  refine ⟨fun mem str _ => if h : ∃ p, Ok mem str p then ⟨h.choose.2, str + h.choose.1.text.length, 0⟩ else ⟨0, 0, 0⟩, ?_⟩
  intro errno mem str n v h1 h2 h3 h4
  have h : ∃ p, Ok mem str p := ⟨(n, v), h1, h2, h3, h4⟩
  obtain ⟨c1, c2, c3, c4⟩ := h.choose_spec
  have hcn : h.choose.1 = n := by
    obtain ⟨r, r1, r2⟩ := krosh_end (T := T) h4
    obtain ⟨r', r1', r2'⟩ := krosh_end (T := T) c4
    rw [r1, Except.ok.injEq] at r1'
    rw [← r1', r2, (printed_reads h1 h2 h3).2, (printed_reads c1 c2 c3).2] at r2'
    have hlen : n.text.length = h.choose.1.text.length := by omega
    obtain ⟨c, R, e1, -⟩ := h4.text
    obtain ⟨c', R', e2, -⟩ := c4.text
    rw [e1] at e2
    exact (numeral_text_inj _ _ (List.append_inj_left e2 hlen)).symm
  have h5 := (printed_reads c1 c2 c3).1
  intro _ _ _
  beta_reduce
  rw [dif_pos h]
  rw [hcn] at h5 ⊢
  exact ⟨h5, rfl, (by decide : (0 : Nat) ≠ ERANGE)⟩

/-- The hypotheses are met: 0.1, -inf, 0 and 1.0 with commas between, at index 1. -/
theorem survives_examples : ∀ v ∈ [0x3FB999999999999A, 0xFFF0000000000000, 0, 0x3FF0000000000000], Survives .double v := by
  have pow2 : ∀ (v : Nat) (q : ℚ), |value .double v| = q → (∀ j ∈ lostExponents .double, q ≠ 2 ^ j) →
      ∀ j ∈ lostExponents .double, |value .double v| ≠ 2 ^ j := fun v q h1 h2 => by rw [h1]; exact h2
  intro v hv
  simp only [List.mem_cons, List.not_mem_nil, or_false] at hv
  rcases hv with rfl | rfl | rfl | rfl
  · have e : value .double 0x3FB999999999999A = 3602879701896397 / 2 ^ 55 := by
      norm_num [value, signBit, mag, expField, fracField, emin, FloatType.W, FloatType.p, FloatType.minExp]
    refine Or.inr (Or.inr ⟨⟨by decide, by decide⟩, by rw [e]; norm_num, ?_⟩)
    intro j _ hi
    rw [e, abs_of_pos (by norm_num)] at hi
    have h1 : (2 : ℚ) ^ (-4 : ℤ) < 2 ^ j := by rw [← hi]; norm_num
    have h2 : (2 : ℚ) ^ j < 2 ^ (-3 : ℤ) := by rw [← hi]; norm_num
    have h1' := (zpow_lt_zpow_iff_right₀ (by norm_num)).mp h1
    have h2' := (zpow_lt_zpow_iff_right₀ (by norm_num)).mp h2
    omega
  · exact Or.inl ⟨by decide, by decide, by decide⟩
  · exact Or.inr (Or.inl rfl)
  · have e : value .double 0x3FF0000000000000 = 1 := by
      norm_num [value, signBit, mag, expField, fracField, emin, FloatType.W, FloatType.p, FloatType.minExp]
    refine Or.inr (Or.inr ⟨⟨by decide, by decide⟩, by rw [e]; norm_num, ?_⟩)
    intro j hj hi
    rw [e, abs_one] at hi
    have : j = 0 := by
      have : (2 : ℚ) ^ (0 : ℤ) = 2 ^ j := by rw [← hi]; norm_num
      exact (zpow_right_injective₀ (by norm_num) (by norm_num) this).symm
    subst this
    revert hj; decide

example (mem : List Nat) (h : 138 ≤ mem.length) :
    ∃ mem', writeAll .double ','.toNat [0x3FB999999999999A, 0xFFF0000000000000, 0, 0x3FF0000000000000] mem 1 = .ok mem' ∧
      mem'.take 1 = mem.take 1 := by
  obtain ⟨mem', h1, h2, -⟩ := C58_sequence .double ','.toNat (by decide) _ survives_examples mem 1
    (by rw [show maxBufferSize .double = 34 by decide]; simpa using h)
  exact ⟨mem', h1, h2⟩

/-- The two loops, run. -/
example : (do
    let mem ← writeAll .double ','.toNat [0x3FB999999999999A, 0xFFF0000000000000, 0] (List.replicate 30 7) 1
    readAll .double (fun _ _ _ => ⟨0, 0, 0⟩) mem 3 0 1) = .ok [(0x3FB999999999999A, .success), (0xFFF0000000000000, .success), (0, .success)] := by
  decide +kernel

end Floaxie
