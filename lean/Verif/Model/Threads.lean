import Verif.Model.Steps
import Mathlib.Logic.Function.Basic

/-!
# Threads

Calls running at the same time: at any moment any one of them performs its next
character access on the common memory.  This is sequential consistency; it is
what C++ promises for programs without data races, and the absence of data races
(`Race`) is part of what is proved.
-/

namespace Floaxie

namespace Prog

/-- The program, run without interruption on the memory object `m`. -/
def run {α : Type} : Prog α → List Nat → M (List Nat × α)
  | ret a, m => .ok (m, a)
  | fail e, _ => .error e
  | load i k, m =>
    match m[i]? with
    | some c => run (k c) m
    | none => .error .oobRead
  | store i c k, m => if i < m.length then run k (m.set i c) else .error .oobWrite

/-- The program never writes. -/
def NoStore {α : Type} : Prog α → Prop
  | ret _ => True
  | fail _ => True
  | load _ k => ∀ c, NoStore (k c)
  | store _ _ _ => False

/-- Number of accesses the program performs when run without interruption. -/
def cost {α : Type} : Prog α → List Nat → Nat
  | ret _, _ => 0
  | fail _, _ => 0
  | load i k, m =>
    match m[i]? with
    | some c => cost (k c) m + 1
    | none => 0
  | store i c k, m => cost k (m.set i c) + 1

end Prog

/-- Calls in progress: the common memory and what each call has still to do. -/
structure Threads (ι ρ : Type) where
  mem : List Nat
  prog : ι → Prog ρ

variable {ι ρ : Type} [DecidableEq ι]

/-- `Step base size n t t'`: the call `n` makes its next access; it has been given
the object of `size n` characters at `base n` and may access nothing else. -/
inductive Step (base size : ι → Nat) (n : ι) (t : Threads ι ρ) : Threads ι ρ → Prop
  | load (i : Nat) (k : Nat → Prog ρ) (c : Nat) : t.prog n = .load i k → i < size n →
      t.mem[base n + i]? = some c → Step base size n t ⟨t.mem, Function.update t.prog n (k c)⟩
  | store (i : Nat) (c : Nat) (k : Prog ρ) : t.prog n = .store i c k → i < size n →
      base n + i < t.mem.length → Step base size n t ⟨t.mem.set (base n + i) c, Function.update t.prog n k⟩

/-- `Steps base size t k t'`: `k` accesses, by the calls in any order, lead from `t` to `t'`. -/
inductive Steps (base size : ι → Nat) (t : Threads ι ρ) : Nat → Threads ι ρ → Prop
  | refl : Steps base size t 0 t
  | snoc {k : Nat} {t' t'' : Threads ι ρ} (n : ι) : Steps base size t k t' → Step base size n t' t'' → Steps base size t (k + 1) t''

/-- The next access of the call is a write to `a`. -/
def Prog.WritesAt (p : Prog ρ) (b a : Nat) : Prop := ∃ i c k, p = .store i c k ∧ b + i = a

/-- The next access of the call is a read of `a`. -/
def Prog.ReadsAt (p : Prog ρ) (b a : Nat) : Prop := ∃ i k, p = .load i k ∧ b + i = a

/-- A data race: two calls are about to access the same character, one of them writing. -/
def Race (base : ι → Nat) (t : Threads ι ρ) : Prop :=
  ∃ n n' a, n ≠ n' ∧ (t.prog n).WritesAt (base n) a ∧ ((t.prog n').WritesAt (base n') a ∨ (t.prog n').ReadsAt (base n') a)

/-- The object of `size` characters at `base`. -/
def region (mem : List Nat) (base size : Nat) : List Nat := (mem.drop base).take size

end Floaxie
