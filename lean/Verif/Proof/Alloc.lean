import Verif.Model.Alloc
import Verif.Spec.Heap
import Verif.Proof.Locale
import Verif.Proof.Cut

/-!
# The vector never grows: the model with dynamic memory refines the plain model
-/

namespace Floaxie

open FloatType Spec

set_option linter.unusedSectionVars false

variable [L : Locale] {mem : List Nat} {H : Heap}

namespace A

variable {α β : Type}

theorem bind_apply (x : A α) (f : α → A β) (l : List HeapEvent) : (x >>= f) l = match x l with
    | (.ok a, l') => f a l'
    | (.error e, l') => (.error e, l') := rfl

theorem pure_apply (a : α) (l : List HeapEvent) : (pure a : A α) l = (.ok a, l) := rfl

theorem bind_ok' {x : A α} {f : α → A β} {l l' : List HeapEvent} {a : α} (h : x l = (.ok a, l')) : (x >>= f) l = f a l' := by
  rw [bind_apply, h]

theorem bind_error' {x : A α} {f : α → A β} {l l' : List HeapEvent} {e : Crash} (h : x l = (.error e, l')) :
    (x >>= f) l = (.error e, l') := by
  rw [bind_apply, h]

theorem lift_bind (x : M α) (f : α → M β) : lift (x >>= f) = (lift x >>= fun a => lift (f a)) := by
  funext l
  rw [bind_apply]
  cases x <;> rfl

theorem lift_pure (a : α) : lift (pure a : M α) = pure a := rfl
theorem lift_ok (a : α) : lift (.ok a : M α) = pure a := rfl

theorem pure_bind_A (a : α) (f : α → A β) : (pure a >>= f : A β) = f a := rfl

end A

theorem vecRoom_enough {size k cap : Nat} (h : size + k ≤ cap) : vecRoom H size k cap = pure cap := by
  unfold vecRoom; rw [if_pos h]

theorem flushZeros_length {κ : Nat} (st : PState) (h : st.digits.length ≤ κ) (hκ : κ < 2 ^ 64) :
    st.digits.length ≤ (flushZeros κ st).digits.length ∧ (flushZeros κ st).digits.length ≤ κ := by
  unfold flushZeros
  by_cases h1 : st.zeroLen ≠ 0 ∧ st.digits.length < κ
  · rw [if_pos h1]
    dsimp only
    split_ifs with h2
    · have e : subSz κ st.digits.length = κ - st.digits.length := by
        unfold subSz
        rw [show κ + 2 ^ 64 - st.digits.length = κ - st.digits.length + 2 ^ 64 by omega, Nat.add_mod_right, Nat.mod_eq_of_lt (by omega)]
      rw [e, List.length_append, List.length_replicate]
      have := min_le_right st.zeroLen (κ - st.digits.length)
      omega
    · omega
  · rw [if_neg h1]; omega

theorem pushDigit_length {str κ c : Nat} {st st' : PState} (h : st.digits.length ≤ κ) (hp : pushDigit mem str κ c st = .ok st') :
    st.digits.length ≤ st'.digits.length ∧ st'.digits.length ≤ κ := by
  unfold pushDigit at hp
  by_cases h1 : st.digits.length < κ
  · rw [if_pos h1] at hp
    cases hp
    simp; omega
  · rw [if_neg h1] at hp
    obtain ⟨s1, h2, h3⟩ := bind_ok hp
    cases h3
    dsimp only at h2
    split_ifs at h2 with h4 h5
    · obtain ⟨t, h6, h7⟩ := bind_ok h2
      cases h7
      exact ⟨le_refl _, h⟩
    · cases h2
      exact ⟨le_refl _, h⟩

/-- No room is ever missing. -/
theorem nonzeroDigitA_eq {str κ c : Nat} {st : PState} (h : st.digits.length ≤ κ) (hκ : κ < 2 ^ 64) :
    nonzeroDigitA H mem str κ c st κ = A.lift ((pushDigit mem str κ c (flushZeros κ st)).map fun s => (s, κ)) := by
  obtain ⟨h1, h2⟩ := flushZeros_length st h hκ
  unfold nonzeroDigitA
  dsimp only
  rw [vecRoom_enough (by omega), A.pure_bind_A]
  cases hp : pushDigit mem str κ c (flushZeros κ st) with
  | error e => rfl
  | ok s =>
    obtain ⟨h3, h4⟩ := pushDigit_length h2 hp
    rw [A.lift_ok, A.pure_bind_A, vecRoom_enough (by omega), A.pure_bind_A]
    rfl

theorem parseStep_length {T : FloatType} (hκ : T.digits10 < 2 ^ 64) {str : Nat} {st st1 : PState} (hl : st.digits.length ≤ T.digits10)
    (h : parseStep T mem str st = .ok st1) : st1.digits.length ≤ T.digits10 := by
  cases parseStep_pass h with
  | zero hc he => subst he; dsimp only; rw [(stepZero_frame st).1]; exact hl
  | digit c s hc h0 hd hps he => subst he; exact (pushDigit_length (flushZeros_length st hl hκ).2 hps).2
  | dot hc he => subst he; exact hl
  | nan c k hc hw hp hk he => subst he; exact hl
  | inf c k hc hw hp hk he => subst he; exact hl
  | sign c hc hw hp he => subst he; exact hl
  | other c hc hn he hr => subst he; exact hl

theorem parseStepA_eq {T : FloatType} (hκ : T.digits10 < 2 ^ 64) {str : Nat} {st : PState} (hl : st.digits.length ≤ T.digits10) :
    parseStepA H T mem str st T.digits10 = A.lift ((parseStep T mem str st).map fun s => (s, T.digits10)) := by
  unfold parseStepA parseStep
  cases hr : rd mem (str + st.pos) with
  | error e => rfl
  | ok c =>
    rw [A.lift_ok, A.pure_bind_A, ok_bind]
    by_cases hc : '1'.toNat ≤ c ∧ c ≤ '9'.toNat
    · have n0 : c ≠ '0'.toNat := by rintro rfl; revert hc; decide
      have e : parseSwitch T mem str c st = pushDigit mem str T.digits10 c (flushZeros T.digits10 st) := by
        unfold parseSwitch
        rw [if_neg n0, if_pos hc]
      rw [if_pos hc, nonzeroDigitA_eq hl hκ, e]
      cases pushDigit mem str T.digits10 c (flushZeros T.digits10 st) <;> rfl
    · rw [if_neg hc]
      cases parseSwitch T mem str c st <;> rfl

theorem parseLoopA_eq {T : FloatType} (hκ : T.digits10 < 2 ^ 64) {str : Nat} : ∀ (fuel : Nat) (st : PState),
    st.digits.length ≤ T.digits10 →
    parseLoopA H T mem str fuel st T.digits10 = A.lift ((parseLoop T mem str fuel st).map fun s => (s, T.digits10))
  | 0, _, _ => rfl
  | fuel + 1, st, hl => by
    unfold parseLoopA parseLoop
    cases hs : st.stop with
    | true => rfl
    | false =>
      rw [if_neg (by simp), if_neg (by simp), parseStepA_eq hκ hl]
      cases hp : parseStep T mem str st with
      | error e => rfl
      | ok s => exact parseLoopA_eq hκ fuel s (parseStep_length hκ hl hp)

theorem digits10_small (T : FloatType) : 0 < T.digits10 ∧ T.digits10 < 2 ^ 64 := by cases T <;> decide

/-- One digit run: one request, never enlarged, and given back. -/
theorem parseDigitsA_eq {T : FloatType} {str : Nat} (l : List HeapEvent) :
    parseDigitsA H T mem str l = if H l T.digits10 then
      match parseDigits T mem str with
      | .ok d => (.ok d, l ++ [.request T.digits10 true, .release T.digits10])
      | .error e => (.error (.ub e), l ++ [.request T.digits10 true])
    else (.error .terminate, l ++ [.request T.digits10 false]) := by
  unfold parseDigitsA parseDigits
  rw [A.bind_apply]
  unfold A.alloc
  by_cases hH : H l T.digits10 = true
  · rw [if_pos hH, if_pos hH, hH]
    dsimp only
    rw [parseLoopA_eq (digits10_small T).2 _ _ (by simp [PState.init])]
    cases parseLoop T mem str (maximumOffset + 3) PState.init with
    | error e => rfl
    | ok s =>
      rw [ok_bind]
      change (A.lift (accumulate _ _ _ _ _) >>= _) _ = _
      cases accumulate T.W T.digits10 s.digits.reverse 0 0 with
      | error e => rfl
      | ok v => 
        rw [ok_bind]
        change (_, _) = _
        simp
        rfl
  · rw [if_neg hH, if_neg hH]
    simp only [Bool.not_eq_true] at hH
    rw [hH]

/-- Undefined behaviour, in the model with memory. -/
def toCrash {α : Type} : M α → Except Crash α
  | .ok a => .ok a
  | .error e => .error (.ub e)

/-- `x` does what `y` does, and asks the heap for the blocks in `plan`, one after the other. -/
def Serves {α : Type} (x : Heap → A α) (plan : List Nat) (y : M α) : Prop :=
  ∀ H l, (∀ a, y = .ok a → x H l = (if (serve H plan l).1 then .ok a else .error .terminate, (serve H plan l).2)) ∧
    (x H l).1 = (if (serve H plan l).1 then toCrash y else .error .terminate)

theorem Serves.lift {α : Type} (y : M α) : Serves (fun _ => A.lift y) [] y := by
  intro H l
  constructor
  · rintro a rfl; rfl
  · cases y <;> rfl

theorem Serves.pure {α : Type} (a : α) : Serves (fun _ => Pure.pure a) [] (Pure.pure a : M α) := Serves.lift (Pure.pure a)

theorem serve_append (H : Heap) : ∀ (p q : List Nat) (l : List HeapEvent), serve H (p ++ q) l =
    if (serve H p l).1 then serve H q (serve H p l).2 else serve H p l
  | [], q, l => rfl
  | n :: p, q, l => by
    rw [List.cons_append, serve, serve]
    by_cases h : H l n = true
    · rw [if_pos h, if_pos h, serve_append H p q]
    · rw [if_neg h, if_neg h]; rfl

/-- One computation after another; the plan of the second may depend on the result of the first. -/
theorem Serves.bind {α β : Type} {x : Heap → A α} {f : Heap → α → A β} {p q : List Nat} {y : M α} {g : α → M β}
    (hx : Serves x p y) (hf : ∀ a, y = .ok a → Serves (fun H => f H a) q (g a)) (hn : (∀ a, y ≠ .ok a) → q = []) :
    Serves (fun H => x H >>= f H) (p ++ q) (y >>= g) := by
  intro H l
  obtain ⟨h1, h2⟩ := hx H l
  beta_reduce
  rw [serve_append, A.bind_apply]
  cases hy : y with
  | error e =>
    obtain rfl := hn (by rw [hy]; intro a h; cases h)
    refine ⟨fun a h => ?_, ?_⟩
    · rw [show (Except.error e >>= g : M β) = .error e from rfl] at h
      cases h
    rw [hy] at h2
    by_cases hs : (serve H p l).1 = true
    · rw [if_pos hs] at h2
      rw [if_pos hs, serve, if_pos rfl]
      rcases hxl : x H l with ⟨r, l'⟩
      rw [hxl] at h2
      obtain rfl : r = _ := h2
      rfl
    · rw [if_neg hs] at h2
      rw [if_neg hs, if_neg hs]
      rcases hxl : x H l with ⟨r, l'⟩
      rw [hxl] at h2
      obtain rfl : r = _ := h2
      rfl
  | ok a =>
    have h3 := h1 a hy
    rw [h3]
    by_cases hs : (serve H p l).1 = true
    · rw [if_pos hs, if_pos hs]
      exact hf a hy H (serve H p l).2
    · simp [if_neg hs]

theorem parseDigitsA_serves (T : FloatType) (str : Nat) :
    Serves (fun H => parseDigitsA H T mem str) [T.digits10] (parseDigits T mem str) := by
  intro H l
  beta_reduce
  rw [parseDigitsA_eq, serve]
  by_cases h : H l T.digits10 = true
  · rw [if_pos h, if_pos h]
    constructor
    · intro a ha; rw [ha]; rfl
    · cases parseDigits T mem str <;> rfl
  · rw [if_neg h, if_neg h]
    exact ⟨fun _ _ => rfl, rfl⟩

theorem parseMantissaA_serves (T : FloatType) (str : Nat) :
    Serves (fun H => parseMantissaA H T mem str) [T.digits10] (parseMantissa T mem str) := by
  unfold parseMantissaA parseMantissa
  refine Serves.bind (q := []) (parseDigitsA_serves T str) (fun dp _ => ?_) fun _ => rfl
  by_cases hs : dp.special = .no
  · simp only [if_pos hs]
    exact Serves.bind (p := []) (q := []) (Serves.lift _) (fun w _ => Serves.pure _) fun _ => rfl
  · simp only [if_neg hs]
    exact Serves.pure _

/-- Whether an exponent part is looked for at `str`. -/
def expLetter (mem : List Nat) (str : Nat) : Bool := mem[str]? == some 'e'.toNat || mem[str]? == some 'E'.toNat

theorem parseExponentA_serves (str : Nat) :
    Serves (fun H => parseExponentA H mem str) (if expLetter mem str then [FloatType.float.digits10] else []) (parseExponent mem str) := by
  unfold parseExponentA parseExponent
  refine Serves.bind (p := []) (q := if expLetter mem str then [FloatType.float.digits10] else []) (Serves.lift _) (fun c hc => ?_) fun h => ?_
  · have hc := rd_eq_ok.1 hc
    by_cases he : c ≠ 'e'.toNat ∧ c ≠ 'E'.toNat
    · have : expLetter mem str = false := by
        unfold expLetter; rw [hc]; simpa using he
      simp only [if_pos he, this]
      exact Serves.pure _
    · have : expLetter mem str = true := by
        unfold expLetter; rw [hc]
        simp only [ne_eq, not_and_or, not_not] at he
        rcases he with rfl | rfl <;> decide
      simp only [if_neg he, this, if_true]
      exact Serves.bind (q := []) (parseDigitsA_serves .float (str + 1)) (fun dp _ => Serves.lift _) fun _ => rfl
  · have : expLetter mem str = false := by
      unfold expLetter
      cases hm : mem[str]? with
      | none => rfl
      | some c => exact absurd (rd_some hm) (h c)
    rw [this]; rfl

/-- The blocks `krosh` requests. -/
def kroshPlan (T : FloatType) (mem : List Nat) (str : Nat) : List Nat :=
  match parseMantissa T mem str with
  | .ok mp => T.digits10 :: (if mp.special = .no ∧ mp.value.f ≠ 0 ∧ expLetter mem mp.strEnd = true then [FloatType.float.digits10] else [])
  | .error _ => [T.digits10]

theorem kroshA_serves (T : FloatType) (str : Nat) :
    Serves (fun H => kroshA H T mem str) (kroshPlan T mem str) (krosh T mem str) := by
  unfold kroshA krosh
  have e : kroshPlan T mem str = [T.digits10] ++ (match parseMantissa T mem str with
    | .ok mp => if mp.special = .no ∧ mp.value.f ≠ 0 ∧ expLetter mem mp.strEnd = true then [FloatType.float.digits10] else []
    | .error _ => []) := by
    unfold kroshPlan
    cases parseMantissa T mem str <;> rfl
  rw [e]
  refine Serves.bind (q := match parseMantissa T mem str with
    | .ok mp => if mp.special = .no ∧ mp.value.f ≠ 0 ∧ expLetter mem mp.strEnd = true then [FloatType.float.digits10] else []
    | .error _ => []) (parseMantissaA_serves T str) (fun mp hm => ?_) fun h => ?_
  · rw [hm]
    by_cases hz : mp.special = .no ∧ mp.value.f ≠ 0
    · simp only [if_pos hz]
      have e2 : (if mp.special = .no ∧ mp.value.f ≠ 0 ∧ expLetter mem mp.strEnd = true then [FloatType.float.digits10] else []) =
          (if expLetter mem mp.strEnd then [FloatType.float.digits10] else []) ++ [] := by
        rw [List.append_nil]
        exact if_congr ⟨fun h => h.2.2, fun h => ⟨hz.1, hz.2, h⟩⟩ rfl rfl
      rw [e2]
      exact Serves.bind (parseExponentA_serves mp.strEnd) (fun ep _ => Serves.lift _) fun _ => rfl
    · simp only [if_neg hz]
      rw [if_neg (c := mp.special = .no ∧ mp.value.f ≠ 0 ∧ expLetter mem mp.strEnd = true) (fun h => hz ⟨h.1, h.2.1⟩)]
      exact Serves.pure _
  · cases hp : parseMantissa T mem str with
    | ok mp => exact absurd hp (h mp)
    | error e => rfl

theorem atofA_serves (T : FloatType) (fb : Fallback) (errno str : Nat) :
    Serves (fun H => atofA H T fb errno mem str) (kroshPlan T mem str) (atof T fb errno mem str) := by
  unfold atofA atof
  rw [← List.append_nil (kroshPlan T mem str)]
  refine Serves.bind (kroshA_serves T str) (fun cr _ => ?_) fun _ => rfl
  by_cases h1 : cr.strEnd ≠ str
  · simp only [if_pos h1]
    cases cr.isAccurate <;> exact Serves.pure _
  · simp only [if_neg h1]
    exact Serves.pure _

end Floaxie
