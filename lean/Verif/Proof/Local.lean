import Verif.Model.Atof
import Verif.Proof.Word

/-!
# The parser looks only at the memory it reads

If `mem'` contains `mem` at offset `δ`, then running the parser in `mem'` gives
the shifted outcome of running it in `mem`, unless the latter reads outside of
`mem`.
-/

namespace Floaxie

open FloatType

/-- `mem'` holds a copy of `mem` at offset `δ`. -/
def Holds (mem mem' : List Nat) (δ : Nat) : Prop := ∀ i c, mem[i]? = some c → mem'[i + δ]? = some c

/-- The outcome `r'` is the outcome `r` (transported by `s`), unless `r` is an
out of bounds read. -/
def Keeps {α : Type} (s : α → α) (r r' : M α) : Prop :=
  r = .error .oobRead ∨ r = .error .noTermination ∨ r' = r.map s

theorem Keeps.bind {α β : Type} {s : α → α} {t : β → β} {r r' : M α} {f f' : α → M β}
    (h : Keeps s r r') (hf : ∀ a, Keeps t (f a) (f' (s a))) : Keeps t (r >>= f) (r' >>= f') := by
  rcases h with rfl | rfl | rfl
  · exact Or.inl rfl
  · exact Or.inr (Or.inl rfl)
  · cases r with
    | error e => exact Or.inr (Or.inr rfl)
    | ok a => exact hf a

theorem Keeps.refl {α : Type} (r : M α) : Keeps id r r := by
  refine Or.inr (Or.inr ?_)
  cases r <;> rfl

theorem Keeps.pure {α : Type} {s : α → α} {a b : α} (h : b = s a) : Keeps s (Pure.pure a : M α) (Pure.pure b) := by
  subst h; exact Or.inr (Or.inr rfl)

theorem Keeps.ite {α : Type} {s : α → α} {r r' q q' : M α} (c : Prop) [Decidable c]
    (h1 : Keeps s r r') (h2 : Keeps s q q') : Keeps s (if c then r else q) (if c then r' else q') := by
  split_ifs
  · exact h1
  · exact h2

variable {mem mem' : List Nat} {δ : Nat}

theorem Holds.length_le (h : Holds mem mem' δ) (h0 : mem ≠ []) : mem.length + δ ≤ mem'.length := by
  have h1 : 0 < mem.length := List.length_pos_iff.mpr h0
  have h2 := h (mem.length - 1) mem[mem.length - 1] (List.getElem?_eq_getElem (by omega))
  obtain ⟨h3, -⟩ := List.getElem?_eq_some_iff.mp h2
  omega

theorem rd_local (h : Holds mem mem' δ) (i : Nat) : Keeps id (rd mem i) (rd mem' (i + δ)) := by
  unfold rd
  cases hc : mem[i]? with
  | none => exact Or.inl rfl
  | some c => rw [h i c hc]; exact Or.inr (Or.inr rfl)

variable [Locale]

theorem eatNanLoop_local (h : Holds mem mem' δ) : ∀ (fuel fuel' cp : Nat), fuel ≤ fuel' →
    Keeps (· + δ) (eatNanLoop mem fuel cp) (eatNanLoop mem' fuel' (cp + δ))
  | 0, _, _, _ => Or.inr (Or.inl rfl)
  | fuel + 1, fuel', cp, hf => by
    obtain ⟨g, rfl⟩ : ∃ g, fuel' = g + 1 := ⟨fuel' - 1, by omega⟩
    unfold eatNanLoop
    refine (rd_local h cp).bind fun c => ?_
    refine Keeps.ite _ ?_ (Keeps.pure rfl)
    have := eatNanLoop_local h fuel g (cp + 1) (by omega)
    rwa [show cp + 1 + δ = cp + δ + 1 by omega] at this

theorem eatNan_local (h : Holds mem mem' δ) (str : Nat) : Keeps id (eatNan mem str) (eatNan mem' (str + δ)) := by
  by_cases h0 : mem = []
  · left; subst h0; rfl
  have hl := h.length_le h0
  unfold eatNan
  refine (rd_local h str).bind fun c => Keeps.ite _ ?_ (Keeps.refl _)
  have h1 := rd_local h (str + 1)
  rw [show str + 1 + δ = str + δ + 1 by omega] at h1
  refine h1.bind fun c => Keeps.ite _ ?_ (Keeps.refl _)
  have h2 := rd_local h (str + 2)
  rw [show str + 2 + δ = str + δ + 2 by omega] at h2
  refine h2.bind fun c => Keeps.ite _ ?_ (Keeps.refl _)
  have h3 := eatNanLoop_local h (mem.length + 1) (mem'.length + 1) (str + 3) (by omega)
  rw [show str + 3 + δ = str + δ + 3 by omega] at h3
  refine h3.bind fun cp => ?_
  refine (rd_local h cp).bind fun c => Keeps.ite _ (Keeps.pure ?_) (Keeps.refl _)
  simp only [id]; omega

theorem eatInfLoop_local (h : Holds mem mem' δ) : ∀ (suffix : List Nat) (cp : Nat),
    Keeps (Option.map (· + δ)) (eatInfLoop mem suffix cp) (eatInfLoop mem' suffix (cp + δ))
  | [], cp => Keeps.pure rfl
  | x :: xs, cp => by
    unfold eatInfLoop
    refine (rd_local h cp).bind fun c => Keeps.ite _ ?_ (Keeps.pure rfl)
    have := eatInfLoop_local h xs (cp + 1)
    rwa [show cp + 1 + δ = cp + δ + 1 by omega] at this

theorem eatInf_local (h : Holds mem mem' δ) (str : Nat) : Keeps id (eatInf mem str) (eatInf mem' (str + δ)) := by
  unfold eatInf
  refine (rd_local h str).bind fun c => Keeps.ite _ ?_ (Keeps.refl _)
  have h1 := rd_local h (str + 1)
  rw [show str + 1 + δ = str + δ + 1 by omega] at h1
  refine h1.bind fun c => Keeps.ite _ ?_ (Keeps.refl _)
  have h2 := rd_local h (str + 2)
  rw [show str + 2 + δ = str + δ + 2 by omega] at h2
  refine h2.bind fun c => Keeps.ite _ ?_ (Keeps.refl _)
  have h3 := eatInfLoop_local h ['n'.toNat, 'i'.toNat, 't'.toNat, 'y'.toNat] (str + 3)
  rw [show str + 3 + δ = str + δ + 3 by omega] at h3
  refine h3.bind fun o => ?_
  cases o with
  | none => exact Keeps.refl _
  | some cp => refine Keeps.pure ?_; simp only [id]; omega

omit [Locale] in
theorem fractionDigits_local (h : Holds mem mem' δ) : ∀ (n pos : Nat),
    Keeps id (fractionDigits mem n pos) (fractionDigits mem' n (pos + δ))
  | 0, _ => Keeps.refl _
  | n + 1, pos => by
    unfold fractionDigits
    refine (rd_local h pos).bind fun c => Keeps.ite _ ?_ (Keeps.refl _)
    have := fractionDigits_local h n (pos + 1)
    rw [show pos + 1 + δ = pos + δ + 1 by omega] at this
    exact this.bind fun ds => Keeps.refl _

omit [Locale] in
theorem extract_local (h : Holds mem mem' δ) (k pos : Nat) :
    Keeps id (extractFractionDigits mem k pos) (extractFractionDigits mem' k (pos + δ)) :=
  (fractionDigits_local h k pos).bind fun _ => Keeps.refl _

omit [Locale] in
theorem pushDigit_local (h : Holds mem mem' δ) (str kappa c : Nat) (st : PState) :
    Keeps id (pushDigit mem str kappa c st) (pushDigit mem' (str + δ) kappa c st) := by
  unfold pushDigit
  refine Keeps.ite _ (Keeps.refl _) ?_
  refine Keeps.bind (s := id) ?_ fun st => Keeps.refl _
  refine Keeps.ite _ ?_ (Keeps.refl _)
  dsimp only
  generalize subSz (st.digits.length + st.zeroLen) kappa = suffix
  by_cases hs : suffix > str + st.pos
  · rw [if_pos hs]; exact Or.inl rfl
  · rw [if_neg hs, if_neg (by omega)]
    have := extract_local h fractionDecimalDigits (str + st.pos - suffix)
    rw [show str + st.pos - suffix + δ = str + δ + st.pos - suffix by omega] at this
    exact this.bind fun _ => Keeps.refl _

theorem parseSwitch_local (h : Holds mem mem' δ) (T : FloatType) (str c : Nat) (st : PState) :
    Keeps id (parseSwitch T mem str c st) (parseSwitch T mem' (str + δ) c st) := by
  unfold parseSwitch
  refine Keeps.ite _ (Keeps.refl _) (Keeps.ite _ (pushDigit_local h _ _ _ _) (Keeps.ite _ (Keeps.refl _)
    (Keeps.ite _ (Keeps.ite _ ?_ (Keeps.refl _)) (Keeps.ite _ (Keeps.ite _ ?_ (Keeps.refl _)) (Keeps.refl _)))))
  · have := eatNan_local h (str + st.pos + 1)
    rw [show str + st.pos + 1 + δ = str + δ + st.pos + 1 by omega] at this
    exact this.bind fun _ => Keeps.refl _
  · have := eatInf_local h (str + st.pos + 1)
    rw [show str + st.pos + 1 + δ = str + δ + st.pos + 1 by omega] at this
    exact this.bind fun _ => Keeps.refl _

theorem parseStep_local (h : Holds mem mem' δ) (T : FloatType) (str : Nat) (st : PState) :
    Keeps id (parseStep T mem str st) (parseStep T mem' (str + δ) st) := by
  unfold parseStep
  have := rd_local h (str + st.pos)
  rw [show str + st.pos + δ = str + δ + st.pos by omega] at this
  exact this.bind fun c => (parseSwitch_local h T str c st).bind fun _ => Keeps.refl _

theorem parseLoop_local (h : Holds mem mem' δ) (T : FloatType) (str : Nat) : ∀ (fuel : Nat) (st : PState),
    Keeps id (parseLoop T mem str fuel st) (parseLoop T mem' (str + δ) fuel st)
  | 0, _ => Keeps.refl _
  | fuel + 1, st => by
    unfold parseLoop
    exact Keeps.ite _ (Keeps.refl _) ((parseStep_local h T str st).bind fun st => parseLoop_local h T str fuel st)

theorem parseDigits_local (h : Holds mem mem' δ) (T : FloatType) (str : Nat) :
    Keeps (fun r => { r with strEnd := r.strEnd + δ }) (parseDigits T mem str) (parseDigits T mem' (str + δ)) := by
  unfold parseDigits
  refine (parseLoop_local h T str _ _).bind fun st => ?_
  refine (Keeps.refl _).bind fun v => Keeps.pure ?_
  simp only [id, DigitParseResult.mk.injEq, true_and, and_true]
  omega

theorem parseMantissa_local (h : Holds mem mem' δ) (T : FloatType) (str : Nat) :
    Keeps (fun r => { r with strEnd := r.strEnd + δ }) (parseMantissa T mem str) (parseMantissa T mem' (str + δ)) := by
  unfold parseMantissa
  refine (parseDigits_local h T str).bind fun dp => ?_
  dsimp only
  refine Keeps.ite _ ?_ (Keeps.pure rfl)
  exact (Keeps.refl _).bind fun w => Keeps.pure rfl

theorem parseExponent_local (h : Holds mem mem' δ) (str : Nat) :
    Keeps (fun r => { r with strEnd := r.strEnd + δ }) (parseExponent mem str) (parseExponent mem' (str + δ)) := by
  unfold parseExponent
  refine (rd_local h str).bind fun c => Keeps.ite _ (Keeps.pure rfl) ?_
  have := parseDigits_local h .float (str + 1)
  rw [show str + 1 + δ = str + δ + 1 by omega] at this
  refine this.bind fun dp => ?_
  dsimp only
  refine (Keeps.refl _).bind fun pw => ?_
  exact (Keeps.refl _).bind fun v => Keeps.pure rfl

theorem krosh_local (h : Holds mem mem' δ) (T : FloatType) (str : Nat) :
    Keeps (fun r => { r with strEnd := r.strEnd + δ }) (krosh T mem str) (krosh T mem' (str + δ)) := by
  unfold krosh
  refine (parseMantissa_local h T str).bind fun mp => ?_
  dsimp only
  refine Keeps.ite _ ?_ (Keeps.pure rfl)
  refine (parseExponent_local h mp.strEnd).bind fun ep => ?_
  dsimp only
  refine (Keeps.refl _).bind fun K => ?_
  refine Keeps.ite _ (Keeps.ite _ (Keeps.pure rfl) (Keeps.pure rfl)) ?_
  refine (Keeps.refl _).bind fun w => ?_
  refine (Keeps.refl _).bind fun w => ?_
  exact (Keeps.refl _).bind fun v => Keeps.pure rfl

end Floaxie
