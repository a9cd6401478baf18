import Verif.Model.Threads
import Verif.Model.Ftoa
import Verif.Proof.Frame

/-!
# The step programs, run alone, are the functions of the model
-/

namespace Floaxie
open FloatType

namespace Prog

variable {α β : Type}

theorem bind_eq (p : Prog α) (f : α → Prog β) : (p >>= f) = p.bind f := rfl
theorem pure_eq (a : α) : (pure a : Prog α) = ret a := rfl

theorem run_bind (p : Prog α) (f : α → Prog β) (m : List Nat) :
    run (p.bind f) m = (run p m >>= fun x => run (f x.2) x.1) := by
  induction p generalizing m with
  | ret a => rfl
  | fail e => rfl
  | load i k ih =>
    simp only [bind, run]
    cases m[i]? with
    | none => rfl
    | some c => exact ih c m
  | store i c k ih =>
    simp only [bind, run]
    split_ifs
    · exact ih _
    · rfl

theorem run_rd (i : Nat) (m : List Nat) : run (rd i) m = (Floaxie.rd m i >>= fun c => .ok (m, c)) := by
  simp only [rd, run, Floaxie.rd]
  cases m[i]? <;> rfl

theorem run_wr (i c : Nat) (m : List Nat) : run (wr i c) m = (Floaxie.wr m i c >>= fun m' => .ok (m', ())) := by
  simp only [wr, run, Floaxie.wr]
  split_ifs <;> rfl

theorem run_lift (x : M α) (m : List Nat) : run (lift x) m = (x >>= fun a => .ok (m, a)) := by
  cases x <;> rfl

theorem run_memset (i c n : Nat) (m : List Nat) {m' : List Nat} (h : Floaxie.memset m i c n = .ok m') :
    run (memset i c n) m = .ok (m', ()) := by
  unfold Floaxie.memset at h
  split_ifs at h with hl
  rw [Except.ok.injEq] at h
  subst h
  induction n generalizing i m with
  | zero => simp [memset, run]
  | succ n ih =>
    rw [memset, run, if_pos (by omega), ih (i + 1) (m.set i c) (by simpa using by omega)]
    congr 2
    apply List.ext_getElem?
    intro j
    simp only [List.append_assoc, List.getElem?_append, List.length_take, List.length_set, List.getElem?_take, List.getElem?_set,
      List.getElem?_drop, List.length_replicate, List.getElem?_replicate]
    have e1 : min (i + 1) m.length = i + 1 := by omega
    have e2 : min i m.length = i := by omega
    rw [e1, e2]
    by_cases h1 : j < i
    · simp [h1, show j < i + 1 by omega, show i ≠ j by omega]
    · by_cases h2 : j = i
      · subst h2
        simp [show j < m.length by omega]
      · by_cases h3 : j < i + (n + 1)
        · simp [h1, show ¬ j < i + 1 by omega, show j - (i + 1) < n by omega, show j - i < n + 1 by omega]
        · have : i + 1 + n + (j - (i + 1) - n) = j := by omega
          have h4 : i + (n + 1) + (j - i - (n + 1)) = j := by omega
          simp [h1, show ¬ j < i + 1 by omega, show ¬ j - (i + 1) < n by omega, show ¬ j - i < n + 1 by omega, this, h4,
            show i ≠ j by omega]

theorem run_loads (i n : Nat) (m : List Nat) (h : i + n ≤ m.length) : run (loads i n) m = .ok (m, (m.drop i).take n) := by
  induction n generalizing i with
  | zero => simp [loads, run]
  | succ n ih =>
    simp only [loads, run]
    rw [List.getElem?_eq_getElem (by omega)]
    dsimp only
    rw [run_bind, ih (i + 1) (by omega)]
    simp only [run, Bind.bind, Except.bind]
    congr 2
    rw [List.drop_eq_getElem_cons (by omega : i < m.length), List.take_succ_cons]

theorem run_stores (i : Nat) (cs m : List Nat) (h : i + cs.length ≤ m.length) :
    run (stores i cs) m = .ok (m.take i ++ cs ++ m.drop (i + cs.length), ()) := by
  induction cs generalizing i m with
  | nil => simp [stores, run]
  | cons c cs ih =>
    simp only [List.length_cons] at h
    rw [stores, run, if_pos (by omega), ih (i + 1) (m.set i c) (by simpa using by omega)]
    congr 2
    have e : (m.set i c).take (i + 1) = m.take i ++ [c] := by
      rw [List.take_add_one, List.getElem?_set_self (by omega)]
      simp [List.take_set_of_le]
    rw [e]
    have e2 : (m.set i c).drop (i + 1 + cs.length) = m.drop (i + (cs.length + 1)) := by
      rw [List.drop_set_of_lt (by omega)]
      congr 1
      omega
    rw [e2]
    simp

theorem run_memmove (dst src n : Nat) (m : List Nat) {m' : List Nat} (h : Floaxie.memmove m dst src n = .ok m') :
    run (memmove dst src n) m = .ok (m', ()) := by
  unfold Floaxie.memmove at h
  split_ifs at h with h1 h2
  rw [Except.ok.injEq] at h
  subst h
  have hl : ((m.drop src).take n).length = n := by simp; omega
  rw [memmove, run_bind, run_loads _ _ _ h1]
  change run (stores dst ((m.drop src).take n)) m = _
  rw [run_stores _ _ _ (by rw [hl]; exact h2), hl]

theorem run_wrStr (i : Nat) (cs m : List Nat) {m' : List Nat} (h : wrStr m i cs = .ok m') :
    run (stores i cs) m = .ok (m', ()) := by
  induction cs generalizing i m with
  | nil => simpa [stores, run, wrStr] using h
  | cons c cs ih =>
    rw [wrStr] at h
    obtain ⟨m1, h1, h2⟩ := bindOk h
    unfold Floaxie.wr at h1
    split_ifs at h1 with hl
    rw [Except.ok.injEq] at h1
    subst h1
    rw [stores, run, if_pos hl]
    exact ih _ _ h2

/-- Composition, for successful runs. -/
theorem run_bind_ok {p : Prog α} {f : α → Prog β} {m m1 m2 : List Nat} {a : α} {b : β}
    (h1 : run p m = .ok (m1, a)) (h2 : run (f a) m1 = .ok (m2, b)) : run (p >>= f) m = .ok (m2, b) := by
  rw [bind_eq, run_bind, h1]
  exact h2

theorem run_wr_ok {i c : Nat} {m m' : List Nat} (h : Floaxie.wr m i c = .ok m') : run (wr i c) m = .ok (m', ()) := by
  rw [run_wr, h]; rfl

theorem run_lift_ok {x : M α} {a : α} (h : x = .ok a) (m : List Nat) : run (lift x) m = .ok (m, a) := by
  rw [run_lift, h]; rfl

end Prog

open Prog

/-! ## Printing -/

theorem run_genIntLoop (o : Nat) : ∀ (kappa div p1 : Nat) (m : List Nat) (len : Nat) {m' : List Nat} {x : Nat × Nat},
    genIntLoop o kappa div p1 m len = .ok (m', x) → run (genIntLoopP o kappa div p1 len) m = .ok (m', x)
  | 0, _, _, m, len, m', x, h => by
    rw [genIntLoop] at h
    simpa [genIntLoopP, run] using h
  | kappa + 1, div, p1, m, len, m', x, h => by
    rw [genIntLoop] at h
    rw [genIntLoopP]
    split_ifs at h ⊢ with h1 h2
    · obtain ⟨m1, e1, e2⟩ := bindOk h
      exact run_bind_ok (run_wr_ok e1) (run_genIntLoop o _ _ _ _ _ e2)
    · simpa [run] using h

theorem run_genFracLoop (T : FloatType) (o s oneF : Nat) (some : Bool) :
    ∀ (fuel p2 delta : Nat) (m : List Nat) (len kappa : Nat) {m' : List Nat} {x : Nat × Nat},
    genFracLoop T o s oneF some fuel p2 delta m len kappa = .ok (m', x) →
      run (genFracLoopP T o s oneF some fuel p2 delta len kappa) m = .ok (m', x)
  | 0, _, _, m, len, _, m', x, h => by cases h
  | fuel + 1, p2, delta, m, len, kappa, m', x, h => by
    rw [genFracLoop] at h
    rw [genFracLoopP]
    split_ifs at h ⊢ with h1
    · obtain ⟨⟨m1, l1⟩, e1, e2⟩ := bindOk h
      dsimp only at e2
      refine run_bind_ok (a := l1) (m1 := m1) ?_ (run_genFracLoop T o s oneF some _ _ _ _ _ _ e2)
      split_ifs at e1 ⊢ with hd
      · obtain ⟨m2, e3, e4⟩ := bindOk e1
        refine run_bind_ok (run_wr_ok e3) ?_
        simpa [pure, Except.pure, run] using e4
      · simpa [pure, Except.pure, run] using e1
    · simpa [run] using h

theorem run_digitGen (T : FloatType) (Mp Mm : DiyFp) (o : Nat) (K : Int) {m m' : List Nat} {x : Nat × Int}
    (h : digitGen T Mp Mm m o K = .ok (m', x)) : run (digitGenP T Mp Mm o K) m = .ok (m', x) := by
  unfold digitGen at h
  unfold digitGenP
  obtain ⟨_, e1, h⟩ := bindOk h
  refine run_bind_ok (run_lift_ok e1 _) ?_
  obtain ⟨delta, e2, h⟩ := bindOk h
  refine run_bind_ok (run_lift_ok e2 _) ?_
  obtain ⟨oneF, e3, h⟩ := bindOk h
  refine run_bind_ok (run_lift_ok e3 _) ?_
  obtain ⟨_, e4, h⟩ := bindOk h
  refine run_bind_ok (run_lift_ok e4 _) ?_
  dsimp only at h ⊢
  by_cases h1 : Mp.f >>> (-Mp.e).toNat % 2 ^ 32 ≠ 0
  · rw [if_pos h1] at h ⊢
    obtain ⟨⟨m1, l1, k1⟩, e5, h⟩ := bindOk h
    refine run_bind_ok (run_genIntLoop _ _ _ _ _ _ e5) ?_
    dsimp only at h ⊢
    split_ifs at h ⊢ with h2
    · simpa [pure, Except.pure, run] using h
    · obtain ⟨m2, e6, h⟩ := bindOk h
      refine run_bind_ok (run_memset _ _ _ _ e6) ?_
      obtain ⟨⟨m3, l3, k3⟩, e7, h⟩ := bindOk h
      refine run_bind_ok (run_genFracLoop _ _ _ _ _ _ _ _ _ _ _ e7) ?_
      simpa [pure, Except.pure, run] using h
  · rw [if_neg h1] at h ⊢
    obtain ⟨⟨m3, l3, k3⟩, e7, h⟩ := bindOk h
    refine run_bind_ok (run_genFracLoop _ _ _ _ _ _ _ _ _ _ _ e7) ?_
    simpa [pure, Except.pure, run] using h

theorem run_grisu2 [FpEval] (T : FloatType) (bits o : Nat) {m m' : List Nat} {x : Nat × Int}
    (h : grisu2 T bits m o = .ok (m', x)) : run (grisu2S T bits o) m = .ok (m', x) := by
  unfold grisu2 grisu2At at h
  unfold grisu2S
  obtain ⟨⟨wm, wp⟩, e1, h⟩ := bindOk h
  refine run_bind_ok (run_lift_ok e1 _) ?_
  obtain ⟨c, e2, h⟩ := bindOk h
  refine run_bind_ok (run_lift_ok e2 _) ?_
  exact run_digitGen T _ _ _ _ h

theorem run_fillExponent (K o : Nat) {m m' : List Nat} {x : Nat} (h : fillExponent K m o = .ok (m', x)) :
    run (fillExponentP K o) m = .ok (m', x) := by
  unfold fillExponent at h
  unfold fillExponentP
  obtain ⟨m1, e1, h⟩ := bindOk h
  refine run_bind_ok (run_wr_ok e1) ?_
  dsimp only at h ⊢
  split at h
  · next d0 d1 h0 h1 =>
    rw [h0, h1]
    obtain ⟨m2, e2, h⟩ := bindOk h
    refine run_bind_ok (run_wr_ok e2) ?_
    obtain ⟨m3, e3, h⟩ := bindOk h
    refine run_bind_ok (run_wr_ok e3) ?_
    obtain ⟨m4, e4, h⟩ := bindOk h
    refine run_bind_ok (run_wr_ok e4) ?_
    simpa [pure, Except.pure, run] using h
  · cases h

theorem run_printScientific (o len : Nat) (dotPos : Int) {m m' : List Nat} {x : Nat}
    (h : printScientific m o len dotPos = .ok (m', x)) : run (printScientificP o len dotPos) m = .ok (m', x) := by
  unfold printScientific at h
  unfold printScientificP
  obtain ⟨⟨m1, o1⟩, e1, h⟩ := bindOk h
  refine run_bind_ok (a := o1) (m1 := m1) ?_ ?_
  · split_ifs at e1 ⊢ with hl
    · obtain ⟨m2, e2, h⟩ := bindOk e1
      refine run_bind_ok (run_memmove _ _ _ _ e2) ?_
      obtain ⟨m3, e3, h⟩ := bindOk h
      refine run_bind_ok (run_wr_ok e3) ?_
      simpa [pure, Except.pure, run] using h
    · simpa [pure, Except.pure, run] using e1
  · dsimp only at h
    obtain ⟨m2, e2, h⟩ := bindOk h
    refine run_bind_ok (run_wr_ok e2) ?_
    obtain ⟨m3, e3, h⟩ := bindOk h
    refine run_bind_ok (run_wr_ok e3) ?_
    obtain ⟨⟨m4, n⟩, e4, h⟩ := bindOk h
    refine run_bind_ok (run_fillExponent _ _ e4) ?_
    simpa [pure, Except.pure, run] using h

theorem run_printDecimal (o len : Nat) (k : Int) {m m' : List Nat} {x : Nat}
    (h : printDecimal m o len k = .ok (m', x)) : run (printDecimalP o len k) m = .ok (m', x) := by
  unfold printDecimal at h
  unfold printDecimalP
  obtain ⟨m1, e1, h⟩ := bindOk h
  refine run_bind_ok (run_memmove _ _ _ _ e1) ?_
  obtain ⟨m2, e2, h⟩ := bindOk h
  refine run_bind_ok (run_memset _ _ _ _ e2) ?_
  obtain ⟨m3, e3, h⟩ := bindOk h
  refine run_bind_ok (run_memset _ _ _ _ e3) ?_
  obtain ⟨m4, e4, h⟩ := bindOk h
  refine run_bind_ok (run_wr_ok e4) ?_
  obtain ⟨m5, e5, h⟩ := bindOk h
  refine run_bind_ok (run_wr_ok e5) ?_
  simpa [pure, Except.pure, run] using h

theorem run_prettify (t o len : Nat) (k : Int) {m m' : List Nat} {x : Nat}
    (h : prettify t m o len k = .ok (m', x)) : run (prettifyP t o len k) m = .ok (m', x) := by
  unfold prettify at h
  unfold prettifyP
  dsimp only at h ⊢
  split at h
  · next hf => rw [hf]; exact run_printDecimal _ _ _ h
  · next hf => rw [hf]; exact run_printScientific _ _ _ h

/-- `ftoa`, step by step. -/
theorem run_ftoa [FpEval] (T : FloatType) (bits : Nat) {m m' : List Nat} {x : Nat}
    (h : ftoa T bits m = .ok (m', x)) : run (ftoaP T bits) m = .ok (m', x) := by
  unfold ftoa at h
  unfold ftoaP
  generalize hs : (if isNegative T bits then 1 else 0 : Nat) = sg at h ⊢
  split_ifs at h ⊢
  · obtain ⟨m1, e1, h⟩ := bindOk h
    refine run_bind_ok (run_wrStr _ _ _ e1) ?_
    simpa [pure, Except.pure, run] using h
  · obtain ⟨m1, e1, h⟩ := bindOk h
    refine run_bind_ok (run_wrStr _ _ _ e1) ?_
    simpa [pure, Except.pure, run] using h
  · obtain ⟨m1, e1, h⟩ := bindOk h
    refine run_bind_ok (run_wrStr _ _ _ e1) ?_
    simpa [pure, Except.pure, run] using h
  · obtain ⟨m1, e1, h⟩ := bindOk h
    refine run_bind_ok (run_wrStr _ _ _ e1) ?_
    simpa [pure, Except.pure, run] using h
  · obtain ⟨m1, e1, h⟩ := bindOk h
    refine run_bind_ok (run_wr_ok e1) ?_
    obtain ⟨⟨m2, len, K⟩, e2, h⟩ := bindOk h
    refine run_bind_ok (run_grisu2 _ _ _ e2) ?_
    obtain ⟨⟨m3, n⟩, e3, h⟩ := bindOk h
    refine run_bind_ok (run_prettify _ _ _ _ e3) ?_
    simpa [pure, Except.pure, run] using h

/-! ## Parsing -/

/-- The program only reads, and on the memory `m` it does what `x` says. -/
def RO {α : Type} (m : List Nat) (p : Prog α) (x : M α) : Prop :=
  run p m = (x >>= fun a => .ok (m, a)) ∧ NoStore p

section
variable {α β : Type} {m : List Nat}

theorem noStore_bind {p : Prog α} {f : α → Prog β} (h : NoStore p) (hf : ∀ a, NoStore (f a)) : NoStore (p.bind f) := by
  induction p with
  | ret a => exact hf a
  | fail e => trivial
  | load i k ih => exact fun c => ih c (h c)
  | store i c k ih => exact h.elim

theorem noStore_lift (x : M α) : NoStore (lift x) := by cases x <;> trivial

theorem RO.bind {p : Prog α} {x : M α} {f : α → Prog β} {g : α → M β} (h : RO m p x) (hf : ∀ a, RO m (f a) (g a)) :
    RO m (p >>= f) (x >>= g) := by
  refine ⟨?_, noStore_bind h.2 fun a => (hf a).2⟩
  rw [bind_eq, run_bind, h.1]
  cases x with
  | error e => rfl
  | ok a => exact (hf a).1

theorem RO.pure (a : α) : RO m (pure a) (pure a) := ⟨rfl, trivial⟩
theorem RO.fail (e : UB) : RO m (α := α) (.fail e) (.error e) := ⟨rfl, trivial⟩
theorem RO.lift (x : M α) : RO m (lift x) x := ⟨run_lift x m, noStore_lift x⟩
theorem RO.rd (i : Nat) : RO m (Prog.rd i) (Floaxie.rd m i) := ⟨run_rd i m, fun _ => trivial⟩
theorem RO.ite {c : Prop} [Decidable c] {p q : Prog α} {x y : M α} (h1 : RO m p x) (h2 : RO m q y) :
    RO m (if c then p else q) (if c then x else y) := by
  split_ifs
  · exact h1
  · exact h2
theorem RO.match_some {f : Nat → Prog α} {g : Nat → M α} {p : Prog α} {x : M α} (o : Option Nat) (h1 : ∀ a, RO m (f a) (g a))
    (h2 : RO m p x) : RO m (match o with | some a => f a | none => p) (match o with | some a => g a | none => x) := by
  cases o
  · exact h2
  · exact h1 _
end

macro "ro1" : tactic => `(tactic| with_reducible first
  | assumption | exact RO.pure _ | exact RO.fail _ | exact RO.rd _ | exact RO.lift _ | (refine RO.bind ?_ fun _ => ?_) | (refine RO.ite ?_ ?_)
  | (refine RO.match_some _ (fun _ => ?_) ?_))

section
variable [Locale] {m : List Nat}

theorem ro_eatNanLoop : ∀ (fuel cp : Nat), RO m (eatNanLoopP fuel cp) (eatNanLoop m fuel cp)
  | 0, _ => RO.fail _
  | fuel + 1, cp => by
    have := ro_eatNanLoop fuel (cp + 1)
    rw [eatNanLoopP, eatNanLoop]
    repeat' ro1

theorem ro_eatNan (str : Nat) : RO m (eatNanP (m.length + 1) str) (eatNan m str) := by
  have := ro_eatNanLoop (m := m) (m.length + 1) (str + 3)
  unfold eatNanP eatNan
  repeat' ro1

theorem ro_eatInfLoop : ∀ (xs : List Nat) (cp : Nat), RO m (eatInfLoopP xs cp) (eatInfLoop m xs cp)
  | [], cp => RO.pure _
  | x :: xs, cp => by
    have := ro_eatInfLoop xs (cp + 1)
    rw [eatInfLoopP, eatInfLoop]
    repeat' ro1

theorem ro_eatInf (str : Nat) : RO m (eatInfP str) (eatInf m str) := by
  have := ro_eatInfLoop (m := m) ['n'.toNat, 'i'.toNat, 't'.toNat, 'y'.toNat] (str + 3)
  unfold eatInfP eatInf
  repeat' ro1
  rename_i o
  cases o <;> exact RO.pure _

omit [Locale] in
theorem ro_fractionDigits : ∀ (n pos : Nat), RO m (fractionDigitsP n pos) (fractionDigits m n pos)
  | 0, _ => RO.pure _
  | n + 1, pos => by
    have := ro_fractionDigits n (pos + 1)
    rw [fractionDigitsP, fractionDigits]
    repeat' ro1

omit [Locale] in
theorem ro_pushDigit (str kappa c : Nat) (st : PState) : RO m (pushDigitP str kappa c st) (pushDigit m str kappa c st) := by
  have := fun pos => ro_fractionDigits (m := m) fractionDecimalDigits pos
  unfold pushDigitP pushDigit extractFractionDigitsP extractFractionDigits
  repeat' first
    | with_reducible exact this _
    | ro1

theorem ro_parseSwitch (T : FloatType) (str c : Nat) (st : PState) :
    RO m (parseSwitchP T (m.length + 1) str c st) (parseSwitch T m str c st) := by
  unfold parseSwitchP parseSwitch
  repeat' first
    | with_reducible exact ro_pushDigit _ _ _ _
    | with_reducible exact ro_eatNan _
    | with_reducible exact ro_eatInf _
    | ro1

theorem ro_parseLoop (T : FloatType) (str : Nat) : ∀ (budget : Nat) (st : PState),
    RO m (parseLoopP T (m.length + 1) str budget st) (parseLoop T m str budget st)
  | 0, _ => RO.fail _
  | budget + 1, st => by
    rw [parseLoopP, parseLoop]
    unfold parseStepP parseStep
    repeat' first
      | with_reducible exact ro_parseSwitch _ _ _ _
      | with_reducible exact ro_parseLoop T str budget _
      | ro1

theorem ro_parseDigits (T : FloatType) (str : Nat) : RO m (parseDigitsP T (m.length + 1) str) (parseDigits T m str) := by
  unfold parseDigitsP parseDigits
  repeat' first
    | with_reducible exact ro_parseLoop _ _ _ _
    | ro1

theorem ro_krosh (T : FloatType) (str : Nat) : RO m (kroshP T (m.length + 1) str) (krosh T m str) := by
  unfold kroshP krosh parseMantissaP parseMantissa parseExponentP parseExponent
  repeat' first
    | with_reducible exact ro_parseDigits _ _
    | ro1
  exact RO.pure _

/-- `atof`, step by step. -/
theorem ro_atof (T : FloatType) {fbP : Nat → Prog FallbackResult} {fb : Fallback} {errno : Nat}
    (h : RO m (fbP errno) (.ok (fb m 0 errno))) :
    RO m (atofP T fbP errno (m.length + 1)) (atof T fb errno m 0) := by
  unfold atofP atof
  refine RO.bind (ro_krosh T 0) fun cr => ?_
  refine RO.ite (RO.ite (RO.pure _) ?_) (RO.pure _)
  exact RO.bind h fun r => RO.pure _
end

end Floaxie
