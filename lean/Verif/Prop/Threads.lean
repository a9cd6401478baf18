import Verif.Proof.Threads
import Verif.Prop.Total
import Verif.Prop.Ftoa

/-!
# C68: calls from several threads

The library has no state of its own, so calls from different threads must not
disturb each other as long as nobody writes to what another one uses.
-/

namespace Floaxie
open Spec FloatType Prog

/-- A call of the library. -/
inductive Call where
  /-- `ftoa(v, buffer)` -/
  | print (T : FloatType) (bits : Nat)
  /-- `atof<T>(str, &end, fallback)` in a thread with this `errno` (which is thread-local);
  `fb` says what the fallback yields, `fbP` how it reads the string to find out -/
  | parse (T : FloatType) (fb : Fallback) (fbP : Nat → Prog FallbackResult) (errno : Nat)

/-- What a call returns; end pointers are relative to the string. -/
inductive Returned where
  | printed (length : Nat)
  | parsed (r : AtofResult)

/-- The call only reads its object. -/
def Call.Reader : Call → Prop
  | .print _ _ => False
  | .parse _ _ _ _ => True

/-- The call made with nothing else going on, with the object `obj` (the buffer, the
string), returns `r` and leaves the object as `obj'`. -/
def Call.Alone [Locale] [FpEval] (obj obj' : List Nat) (r : Returned) : Call → Prop
  | .print T bits => ∃ n, r = .printed n ∧ ftoa T bits obj = .ok (obj', n)
  | .parse T fb fbP errno => (∃ a, r = .parsed a ∧ obj' = obj ∧ atof T fb errno obj 0 = .ok a) ∧
      run (fbP errno) obj = .ok (obj, fb obj 0 errno) ∧ NoStore (fbP errno)

/-- The call as a sequence of accesses to an object of `size` characters. -/
def Call.prog [Locale] [FpEval] (size : Nat) : Call → Prog Returned
  | .print T bits => (ftoaP T bits).bind fun n => .ret (.printed n)
  | .parse T _ fbP errno => (atofP T fbP errno (size + 1)).bind fun a => .ret (.parsed a)

theorem Call.prog_alone [Locale] [FpEval] {c : Call} {obj obj' : List Nat} {r : Returned} (h : c.Alone obj obj' r) :
    run (c.prog obj.length) obj = .ok (obj', r) := by
  cases c with
  | print T bits =>
    obtain ⟨n, rfl, h⟩ := h
    rw [Call.prog, run_bind, run_ftoa T bits h]
    rfl
  | parse T fb fbP errno =>
    obtain ⟨⟨a, rfl, rfl, h⟩, h1, h2⟩ := h
    have := (ro_atof T (m := obj') (fbP := fbP) (fb := fb) (errno := errno) ⟨h1, h2⟩).1
    rw [h] at this
    rw [Call.prog, run_bind, this]
    rfl

theorem Call.prog_reader [Locale] [FpEval] {c : Call} {obj obj' : List Nat} {r : Returned} (h : c.Alone obj obj' r) (hc : c.Reader) :
    NoStore (c.prog obj.length) := by
  cases c with
  | print T bits => exact hc.elim
  | parse T fb fbP errno =>
    obtain ⟨_, h1, h2⟩ := h
    exact noStore_bind (ro_atof T (m := obj) (fbP := fbP) (fb := fb) (errno := errno) ⟨h1, h2⟩).2 fun _ => trivial

variable {ι : Type} [DecidableEq ι]

/-- The calls as they start. -/
def started [Locale] [FpEval] (call : ι → Call) (size : ι → Nat) (mem : List Nat) : Threads ι Returned :=
  ⟨mem, fun n => (call n).prog (size n)⟩

/-- Each call has an object of its own, of `size n` characters at `base n`, except that
calls that only read may share; and each call, made alone, completes with `res n`, leaving
its object as `obj n`. -/
structure Separate [Locale] [FpEval] (call : ι → Call) (base size : ι → Nat) (mem : List Nat) (obj : ι → List Nat) (res : ι → Returned) : Prop where
  inside : ∀ n, base n + size n ≤ mem.length
  alone : ∀ n, (call n).Alone (region mem (base n) (size n)) (obj n) (res n)
  apart : ∀ n n', n ≠ n' → ((call n).Reader ∧ (call n').Reader) ∨ base n + size n ≤ base n' ∨ base n' + size n' ≤ base n

omit [DecidableEq ι] in
theorem Separate.apart' [Locale] [FpEval] {call : ι → Call} {base size : ι → Nat} {mem : List Nat} {obj : ι → List Nat} {res : ι → Returned}
    (h : Separate call base size mem obj res) : Apart base size (started call size mem) (fun n => (obj n, res n)) := by
  have hl : ∀ n, (region mem (base n) (size n)).length = size n := fun n => region_length (h.inside n)
  refine ⟨h.inside, fun n => ?_, fun n n' e => ?_⟩
  · have := Call.prog_alone (h.alone n)
    rw [hl] at this
    exact this
  · rcases h.apart n n' e with ⟨a, b⟩ | hd
    · left
      have h1 := Call.prog_reader (h.alone n) a
      have h2 := Call.prog_reader (h.alone n') b
      rw [hl] at h1 h2
      exact ⟨h1, h2⟩
    · exact Or.inr hd

/-- **C68, at every moment.** Any number of calls run at the same time, their accesses
interleaved in any order.  At every moment: no two of them are about to access the same
character, one of them writing; each of them has either finished, with the result and the
object it would have had alone, or it can go on (it is about to make an access inside its
object); and no character outside the output buffers has changed. -/
theorem C68_any_schedule [Locale] [FpEval] (call : ι → Call) (base size : ι → Nat) (mem : List Nat) (obj : ι → List Nat) (res : ι → Returned)
    (h : Separate call base size mem obj res) (k : Nat) (t : Threads ι Returned) (hs : Steps base size (started call size mem) k t) :
    ¬ Race base t ∧
    (∀ n, t.prog n = .ret (res n) ∧ region t.mem (base n) (size n) = obj n ∨ ∃ t', Step base size n t t') ∧
    (∀ a, (∀ n, (call n).Reader ∨ a < base n ∨ base n + size n ≤ a) → t.mem[a]? = mem[a]?) := by
  have g := Going.steps h.apart' hs
  refine ⟨g.noRace h.apart', fun n => g.progress h.apart' n, fun a ha => g.out a fun n => ?_⟩
  rcases ha n with hr | hd
  · left
    have := Call.prog_reader (h.alone n) hr
    rw [region_length (h.inside n)] at this
    exact this
  · exact Or.inr hd

/-- **C68, the end.** There is a number `N` of accesses after which every schedule has finished
all calls, none being able to do more; whatever has happened so far can be
continued to that end, and there each call has the result it would have had alone and
its object is what it would have been. -/
theorem C68_all_finish [Locale] [FpEval] [Fintype ι] (call : ι → Call) (base size : ι → Nat) (mem : List Nat) (obj : ι → List Nat)
    (res : ι → Returned) (h : Separate call base size mem obj res) :
    ∃ N, ∀ (k : Nat) (t : Threads ι Returned), Steps base size (started call size mem) k t →
      k ≤ N ∧
      (k = N → ∀ n, t.prog n = .ret (res n) ∧ region t.mem (base n) (size n) = obj n) ∧
      (k < N → ∃ n t', Step base size n t t') := by
  refine ⟨∑ n, Prog.cost ((started call size mem).prog n) (region (started call size mem).mem (base n) (size n)), fun k t hs => ?_⟩
  · have hc := Steps.costs h.apart' hs
    have g := Going.steps h.apart' hs
    refine ⟨by rw [← hc]; omega, fun e n => ?_, fun hlt => ?_⟩
    · rcases g.progress h.apart' n with hd | ⟨t', st⟩
      · exact hd
      · have := Step.costs h.apart' g st
        omega
    · by_contra hno
      push Not at hno
      have hz : ∑ n, Prog.cost (t.prog n) (region t.mem (base n) (size n)) = 0 := by
        refine Finset.sum_eq_zero fun n _ => ?_
        rcases g.progress h.apart' n with ⟨hd, _⟩ | ⟨t', st⟩
        · rw [hd]; rfl
        · exact (hno n t' st).elim
      omega

/-- **C68, output.** A value printed alone into a buffer of at least `max_buffer_size`
characters: what `Separate` asks for, with the text of C01 - C12 in the buffer. -/
theorem C68_print_alone [Locale] (T : FloatType) (v : Nat) (hv : v < 2 ^ T.W) (s : List Nat) (hs : Prints T v s) (obj : List Nat)
    (hl : maxBufferSize T ≤ obj.length) :
    (Call.print T v).Alone obj (s ++ 0 :: obj.drop (s.length + 1)) (.printed s.length) := by
  refine ⟨_, rfl, C02_ftoa_exact_fit T v s hv hs obj ?_⟩
  obtain ⟨t, h1, h2, h3⟩ := ftoa_total T v hv
  have : s = t := prints_unique hs (prints_of_ok h1 h2 h3)
  subst this
  omega

/-- A fallback that reads one character, for the examples. -/
def peek : Nat → Prog FallbackResult := fun e => .load 0 fun c => .ret ⟨c, 1, e⟩

/-- The hypotheses are met: "1.5" is parsed as `double` and as `float` by two threads, while
a third one prints 0.1 into the 40 characters behind it. -/
example : Separate
    (fun n : Fin 3 => if n = 0 then .parse .double (fun m _ e => ⟨m.headD 0, 1, e⟩) peek 0
      else if n = 1 then .parse .float (fun m _ e => ⟨m.headD 0, 1, e⟩) peek 5
      else .print .double 0x3FB999999999999A)
    (fun n => if n = 2 then 4 else 0) (fun n => if n = 2 then 40 else 4)
    (chars "1.5" ++ 0 :: List.replicate 40 7)
    (fun n => if n = 2 then chars "0.1" ++ 0 :: List.replicate 36 7 else chars "1.5" ++ [0])
    (fun n => if n = 0 then .parsed ⟨0x3FF8000000000000, .success, 3, 0, false⟩
      else if n = 1 then .parsed ⟨0x3FC00000, .success, 3, 5, false⟩ else .printed 3) := by
  refine ⟨by decide, fun n => ?_, fun n n' => ?_⟩
  · fin_cases n
    · exact ⟨⟨_, rfl, rfl, by decide +kernel⟩, rfl, fun _ => trivial⟩
    · exact ⟨⟨_, rfl, rfl, by decide +kernel⟩, rfl, fun _ => trivial⟩
    · exact ⟨_, rfl, by decide +kernel⟩
  · fin_cases n <;> fin_cases n' <;> simp [Call.Reader]

/-- Separate output buffers are needed: two calls printing 1.0 into one buffer race from the start. -/
theorem C68_shared_buffer_races [Locale] [FpEval] (mem : List Nat) :
    Race (fun _ => 0) (started (fun _ : Fin 2 => .print .double 0x3FF0000000000000) (fun _ => 40) mem) := by
  have h : ∃ k, (Call.print .double 0x3FF0000000000000).prog 40 = .store 0 '-'.toNat k := by
    simp only [Call.prog, ftoaP]
    rw [if_neg (by decide +kernel), if_neg (by decide +kernel), if_neg (by decide +kernel)]
    exact ⟨_, rfl⟩
  obtain ⟨k, hk⟩ := h
  exact ⟨0, 1, 0, by decide, ⟨0, _, k, hk, rfl⟩, Or.inl ⟨0, _, k, hk, rfl⟩⟩

end Floaxie
