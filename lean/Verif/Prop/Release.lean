import Verif.Model.Release
import Verif.Prop.Locale
import Verif.Prop.Eval
import Verif.Prop.Total
import Verif.Prop.Format

/-!
# C88: Release builds
-/

namespace Floaxie

open Spec FloatType

/-- In the debug build an assertion fails, or both builds do the same. -/
def DbgRel {α : Type} (dbg rel : M α) : Prop := dbg = .error .assertFail ∨ dbg = rel

theorem DbgRel.same {α : Type} (x : M α) : DbgRel x x := Or.inr rfl

theorem DbgRel.bind {α β : Type} {x y : M α} {f g : α → M β} (h : DbgRel x y) (hf : ∀ v, x = .ok v → DbgRel (f v) (g v)) :
    DbgRel (x >>= f) (y >>= g) := by
  rcases h with h | h
  · rw [h]; exact Or.inl rfl
  · subst h
    cases hx : x with
    | error e => exact Or.inr rfl
    | ok v => exact hf v hx

theorem DbgRel.assert {α : Type} {c : Bool} {x y : M α} (h : c = true → DbgRel x y) : DbgRel (assertM c >>= fun _ => x) y := by
  cases c with
  | false => exact Or.inl rfl
  | true => exact h rfl

theorem DbgRel.ite {α : Type} {c : Prop} [Decidable c] {x y z w : M α} (h1 : c → DbgRel x z) (h2 : ¬ c → DbgRel y w) :
    DbgRel (if c then x else y) (if c then z else w) := by
  by_cases h : c
  · rw [if_pos h, if_pos h]; exact h1 h
  · rw [if_neg h, if_neg h]; exact h2 h

theorem dbg_raisedBit (W k : Nat) : DbgRel (raisedBit W k) (raisedBitR W k) := by
  unfold raisedBit raisedBitR
  by_cases h : k < W
  · rw [if_pos h, if_pos h]; exact DbgRel.same _
  · rw [if_neg h]; exact Or.inl rfl

theorem dbg_roundUp {W : Nat} (hW : W ≤ 64) (x n : Nat) : DbgRel (roundUp W x n) (roundUpR W x n) := by
  unfold roundUp roundUpR
  refine DbgRel.assert fun h => ?_
  have hn : 0 < n := of_decide_eq_true h
  by_cases hlt : n - 1 < W
  · have : subSz n 1 = n - 1 := by unfold subSz; omega
    rw [this]
    exact DbgRel.bind (dbg_raisedBit _ _) fun _ _ => DbgRel.same _
  · left
    unfold raisedBit
    rw [if_neg hlt]; rfl

theorem dbg_normalize (W : Nat) (w : DiyFp) : DbgRel (w.normalize W) (w.normalizeR W) := by
  unfold DiyFp.normalize DiyFp.normalizeR
  exact DbgRel.assert fun _ => DbgRel.same _

theorem dbg_sub (W : Nat) (a b : DiyFp) : DbgRel (a.sub W b) (a.subR W b) := by
  unfold DiyFp.sub DiyFp.subR
  exact DbgRel.assert fun _ => DbgRel.same _

theorem dbg_normIeee (T : FloatType) (w : DiyFp) : DbgRel (w.normalizeFromIeee754 T) (w.normalizeFromIeee754R T) := by
  unfold DiyFp.normalizeFromIeee754 DiyFp.normalizeFromIeee754R
  exact DbgRel.assert fun _ => DbgRel.same _

theorem dbg_boundaries (T : FloatType) (bits : Nat) : DbgRel (boundaries T bits) (boundariesR T bits) := by
  unfold boundaries boundariesR
  exact DbgRel.bind (dbg_normIeee _ _) fun _ _ => DbgRel.same _

theorem dbg_downsample (T : FloatType) (w : DiyFp) : DbgRel (w.downsample T) (w.downsampleR T) := by
  unfold DiyFp.downsample DiyFp.downsampleR
  refine DbgRel.assert fun _ => ?_
  cases hn : w.isNormalized T.W with
  | error e =>
    left
    unfold DiyFp.isNormalized assertM at hn
    by_cases h0 : (w.f != 0) = true
    · rw [if_pos h0] at hn; cases hn
    · rw [if_neg h0] at hn; cases hn; rfl
  | ok b =>
    rw [ok_bind]
    refine DbgRel.assert fun _ => ?_
    dsimp only
    refine DbgRel.ite (fun _ => DbgRel.same _) fun _ => DbgRel.ite (fun _ => DbgRel.same _) fun _ => ?_
    refine DbgRel.assert fun h => ?_
    have h := of_decide_eq_true h
    refine DbgRel.bind (dbg_roundUp (by cases T <;> decide) _ _) fun r _ => ?_
    have hlt : ¬ (max (positivePart (T.minExp - (T.mbs : Int) - w.e - 1)) (T.W - T.p) ≥ T.W) :=
      not_le.mpr (max_lt h (by cases T <;> decide))
    rw [if_neg hlt]
    exact DbgRel.same _

theorem toSizeT_nonneg {i : Int} (h : 0 ≤ i) : toSizeT i = i.toNat := if_pos h

theorem dbg_cachedPower (T : FloatType) (k : Int) : DbgRel (cachedPower T k) (cachedPowerR T k) := by
  unfold cachedPower cachedPowerR
  refine DbgRel.assert fun h => ?_
  have h := of_decide_eq_true h
  rw [toSizeT_nonneg (by omega)]
  exact DbgRel.same _

theorem dbg_digitGen (T : FloatType) (Mp Mm : DiyFp) (buf : List Nat) (o : Nat) (K : Int) :
    DbgRel (digitGen T Mp Mm buf o K) (digitGenR T Mp Mm buf o K) := by
  unfold digitGen digitGenR
  refine DbgRel.assert fun h => ?_
  have h := of_decide_eq_true h
  rw [toSizeT_nonneg (by omega)]
  refine DbgRel.bind (dbg_sub _ _ _) fun delta _ => DbgRel.bind (dbg_raisedBit _ _) fun oneF _ => ?_
  exact DbgRel.assert fun _ => DbgRel.same _

theorem dbg_grisu2 (E : FpEval) (T : FloatType) (bits : Nat) (buf : List Nat) (o : Nat) :
    DbgRel (@grisu2 E T bits buf o) (@grisu2R E T bits buf o) := by
  unfold grisu2 grisu2At grisu2R
  refine DbgRel.bind (dbg_boundaries _ _) fun wp _ => DbgRel.bind (dbg_cachedPower _ _) fun c _ => dbg_digitGen _ _ _ _ _ _

theorem dbg_ftoa (E : FpEval) (T : FloatType) (bits : Nat) (buf : List Nat) :
    DbgRel (@ftoa E T bits buf) (@ftoaR E T bits buf) := by
  unfold ftoa ftoaR
  refine DbgRel.ite (fun _ => DbgRel.same _) fun _ => DbgRel.ite (fun _ => DbgRel.same _) fun _ => DbgRel.ite (fun _ => DbgRel.same _) fun _ => ?_
  exact DbgRel.bind (DbgRel.same _) fun b _ => DbgRel.bind (dbg_grisu2 _ _ _ _ _) fun _ _ => DbgRel.same _

theorem normalizeLoop_exp {W : Nat} : ∀ (n : Nat) {w v : DiyFp}, normalizeLoop W n w = .ok v → v.e ≤ w.e := by
  intro n
  induction n with
  | zero => intro w v h; cases h
  | succ n ih =>
    intro w v h
    unfold normalizeLoop at h
    split_ifs at h
    · cases h; exact le_refl _
    · have := ih h
      simp only at this
      omega

theorem dbg_adjust (T : FloatType) (value frac : Nat) : DbgRel (adjustMantissa T value frac) (adjustMantissaR T value frac) := by
  unfold adjustMantissa adjustMantissaR
  refine DbgRel.bind (dbg_normalize _ _) fun w hw => DbgRel.ite (fun _ => ?_) fun _ => DbgRel.same _
  have he : w.e ≤ 0 := by
    unfold DiyFp.normalize at hw
    obtain ⟨u, -, hw⟩ := bind_ok hw
    exact normalizeLoop_exp _ hw
  refine DbgRel.assert fun h => ?_
  have h := of_decide_eq_true h
  rw [toSizeT_nonneg (by omega)]
  dsimp only
  rw [if_neg (by unfold fractionBinaryDigits at *; omega)]
  exact DbgRel.bind (dbg_roundUp (by decide) _ _) fun _ _ => DbgRel.same _

theorem dbg_parseMantissa (L : Locale) (T : FloatType) (mem : List Nat) (str : Nat) :
    DbgRel (@parseMantissa L T mem str) (@parseMantissaR L T mem str) := by
  unfold parseMantissa parseMantissaR
  refine DbgRel.bind (DbgRel.same _) fun dp _ => DbgRel.ite (fun _ => ?_) fun _ => DbgRel.same _
  exact DbgRel.bind (DbgRel.ite (fun _ => dbg_adjust _ _ _) fun _ => DbgRel.same _) fun _ _ => DbgRel.same _

theorem dbg_krosh (L : Locale) (T : FloatType) (mem : List Nat) (str : Nat) :
    DbgRel (@krosh L T mem str) (@kroshR L T mem str) := by
  unfold krosh kroshR
  refine DbgRel.bind (dbg_parseMantissa _ _ _ _) fun mp _ => DbgRel.ite (fun _ => ?_) fun _ => DbgRel.same _
  refine DbgRel.bind (DbgRel.same _) fun ep _ => DbgRel.bind (DbgRel.same _) fun K _ => DbgRel.ite (fun _ => DbgRel.same _) fun _ => ?_
  refine DbgRel.bind (DbgRel.ite (fun _ => DbgRel.bind (dbg_cachedPower _ _) fun _ _ => DbgRel.same _) fun _ => DbgRel.same _) fun w _ => ?_
  exact DbgRel.bind (dbg_normalize _ _) fun w _ => DbgRel.bind (dbg_downsample _ _) fun v _ => DbgRel.same _

theorem dbg_atof (L : Locale) (T : FloatType) (fb : Fallback) (errno : Nat) (mem : List Nat) (str : Nat) :
    DbgRel (@atof L T fb errno mem str) (@atofR L T fb errno mem str) := by
  unfold atof atofR
  exact DbgRel.bind (dbg_krosh _ _ _ _) fun _ _ => DbgRel.same _

/-- **C88, printing.** Compiled with `NDEBUG`, `ftoa` on a buffer with room for the text (`max_buffer_size` characters always
are enough, C02) does exactly what the debug build does: it writes that text and its terminator, changes nothing else and
returns the length. -/
theorem C88_ftoa (T : FloatType) (E : FpEval) (hE : Reasonable E) (bits : Nat) (hb : bits < 2 ^ T.W) (s : List Nat)
    (hs : Prints T bits s) (buf : List Nat) (hbuf : s.length + 1 ≤ buf.length) :
    @ftoaR E T bits buf = @ftoa E T bits buf ∧
      @ftoaR E T bits buf = .ok (s ++ 0 :: buf.drop (s.length + 1), s.length) := by
  have h := C02_ftoa_exact_fit T bits s hb hs buf hbuf
  rw [← (C66_same_text T E hE bits hb buf).1] at h
  rcases dbg_ftoa E T bits buf with h1 | h1
  · rw [h] at h1; cases h1
  · exact ⟨h1.symm, by rw [← h1, h]⟩

/-- **C88, to_string.** So does `to_string`. -/
theorem C88_to_string (T : FloatType) (E : FpEval) (hE : Reasonable E) (bits : Nat) (hb : bits < 2 ^ T.W) :
    @toBasicStringR E T bits = @toBasicString E T bits := by
  obtain ⟨t, h1, h2, h3⟩ := ftoa_total T bits hb
  have hs := prints_of_ok h1 h2 h3
  unfold toBasicStringR toBasicString
  rw [(C88_ftoa T E hE bits hb t hs _ (by rw [List.length_replicate]; omega)).1]

/-- **C88, no assertion fails.** Reading a terminated string never makes an assertion fail, in any locale that leaves NUL
alone. -/
theorem C88_no_assertion (T : FloatType) (L : Locale) (hL : L.lower 0 = 0) (fb : Fallback) (errno : Nat) (pre s post : List Nat) :
    @atof L T fb errno (pre ++ s ++ 0 :: post) pre.length ≠ .error .assertFail := by
  intro h
  have hc : @atof cLocale T fb errno (pre ++ s ++ 0 :: post) pre.length = .error .assertFail := by
    rcases C67_same_value T L hL fb errno pre s post with ⟨e, h1, h2⟩ | ⟨r, r', -, h2, -⟩
    · rw [h] at h2; cases h2; exact h1
    · rw [h] at h2; cases h2
  obtain ⟨h1, -⟩ := C31_other_errors T fb errno _ _ nul_str _ hc (by decide)
  cases h1

/-- **C88, reading.** Compiled with `NDEBUG`, `atof` on a terminated string has exactly the outcome of the debug build: the
same result, or the same undefined behaviour (C31). -/
theorem C88_atof (T : FloatType) (L : Locale) (hL : L.lower 0 = 0) (fb : Fallback) (errno : Nat) (pre s post : List Nat) :
    @atofR L T fb errno (pre ++ s ++ 0 :: post) pre.length = @atof L T fb errno (pre ++ s ++ 0 :: post) pre.length :=
  ((dbg_atof L T fb errno _ _).resolve_left (C88_no_assertion T L hL fb errno pre s post)).symm

/-- **C88, from_string.** -/
theorem C88_from_string (T : FloatType) (L : Locale) (hL : L.lower 0 = 0) (fb : Fallback) (errno : Nat) (s : List Nat) :
    @fromStringR L T fb errno s = @fromString L T fb errno s := by
  have h := C88_atof T L hL fb errno [] s []
  simpa [fromStringR, fromString] using h

/-- **C88, what the assertions are for.** The functions below the interface, called outside their preconditions, stop the
debug build; the release build goes on and does something else: a difference that is negative wraps around, the exponent of the
subtrahend is ignored, zero is normalized for ever, a power of ten below the table is read outside it, `round_up` to no bits and
`raised_bit` beyond the word shift too far. -/
theorem C88_misuse :
    (∀ (W : Nat) (e : Int) (f g : Nat), f < g → g ≤ 2 ^ W → DiyFp.sub W ⟨f, e⟩ ⟨g, e⟩ = .error .assertFail ∧
      DiyFp.subR W ⟨f, e⟩ ⟨g, e⟩ = .ok ⟨f + 2 ^ W - g, e⟩) ∧
    (∀ (W : Nat) (d e : Int) (f g : Nat), d ≠ e → DiyFp.sub W ⟨f, d⟩ ⟨g, e⟩ = .error .assertFail ∧
      DiyFp.subR W ⟨f, d⟩ ⟨g, e⟩ = DiyFp.subR W ⟨f, d⟩ ⟨g, d⟩) ∧
    (∀ (W : Nat) (e : Int), DiyFp.normalize W ⟨0, e⟩ = .error .assertFail ∧ DiyFp.normalizeR W ⟨0, e⟩ = .error .noTermination) ∧
    (∀ (T : FloatType) (k : Int), -(2 ^ 31) ≤ k → k < T.powLo → cachedPower T k = .error .assertFail ∧
      cachedPowerR T k = .error .badIndex) ∧
    (∀ (W x : Nat), W ≤ 64 → roundUp W x 0 = .error .assertFail ∧ roundUpR W x 0 = .error .badShift) ∧
    (∀ W k : Nat, W ≤ k → raisedBit W k = .error .assertFail ∧ raisedBitR W k = .error .badShift) := by
  refine ⟨fun W e f g h hg => ⟨?_, ?_⟩, fun W d e f g h => ⟨?_, rfl⟩, fun W e => ⟨rfl, ?_⟩, fun T k h0 h => ⟨?_, ?_⟩, fun W x hW => ⟨rfl, ?_⟩, fun W k h => ⟨?_, ?_⟩⟩
  · unfold DiyFp.sub
    rw [show (e == e && decide (f ≥ g)) = false by simp; omega]; rfl
  · unfold DiyFp.subR
    dsimp only
    rw [Nat.mod_eq_of_lt (by omega)]; rfl
  · unfold DiyFp.sub
    rw [show (d == e && decide (f ≥ g)) = false by simp [h]]; rfl
  · unfold DiyFp.normalizeR
    have : ∀ n (e : Int), normalizeLoop W n ⟨0, e⟩ = .error .noTermination := by
      intro n
      induction n with
      | zero => intro e; rfl
      | succ n ih =>
        intro e
        unfold normalizeLoop
        rw [if_neg (by simp [highestBit, nthBit])]
        simpa using ih (e - 1)
    exact this W e
  · unfold cachedPower
    have : ¬ (k ≥ -(T.pow0Offset : Int)) := by
      have : (T.powLo : Int) = -(T.pow0Offset : Int) := by cases T <;> decide
      omega
    rw [decide_eq_false this]; rfl
  · unfold cachedPowerR
    have h1 : (T.powLo : Int) = -(T.pow0Offset : Int) := by cases T <;> decide
    have h2 : T.powF.length ≤ 1000 := by cases T <;> decide +kernel
    have h3 : T.powF[toSizeT (T.pow0Offset + k)]? = none := by
      rw [List.getElem?_eq_none_iff]
      unfold toSizeT
      rw [if_neg (by omega)]
      omega
    simp only [h3]
  · unfold roundUpR raisedBitR
    rw [if_neg (by unfold subSz; omega)]; rfl
  · unfold raisedBit; rw [if_neg (by omega)]
  · unfold raisedBitR; rw [if_neg (by omega)]

/-- The hypotheses of `C88_ftoa` are met by `-2.1` and a buffer of just the right size. -/
example : @ftoaR doubleEval .double 0xC000CCCCCCCCCCCD [9, 9, 9, 9, 9, 7] = .ok (chars "-2.1" ++ [0, 7], 4) :=
  (C88_ftoa .double doubleEval C66_double_evaluation 0xC000CCCCCCCCCCCD (by decide) (chars "-2.1")
    (prints_eval (by decide) (by decide +kernel)) [9, 9, 9, 9, 9, 7] (by decide)).2

/-- Those of `C88_atof` by texts with and without defined outcome. -/
example (fb : Fallback) : atofR .double fb 0 (chars "1e10000" ++ [0]) 0 = .error .badIndex := by
  have h := C88_atof .double cLocale (by decide) fb 0 [] (chars "1e10000") []
  simp only [List.nil_append, List.length_nil] at h
  rw [h]; exact (C31_refuted fb).1

end Floaxie
