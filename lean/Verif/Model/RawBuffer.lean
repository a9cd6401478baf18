import Verif.Model.Threads
import Verif.Model.Indeterminate

/-!
# Model: a buffer that was not initialised

The single-step programs of `Model/Steps` on a memory object some of whose characters have
no value (`char buffer[34];` without initialiser): reading one of these is an error.
-/

namespace Floaxie


namespace Prog

/-- The program, run without interruption on the memory object `m`; `none` is a character without a value. -/
def runRaw {α : Type} : Prog α → List (Slot Nat) → I (List (Slot Nat) × α)
  | ret a, m => .ok (m, a)
  | fail e, _ => .error (.ub e)
  | load i k, m =>
    match m[i]? with
    | some (some c) => runRaw (k c) m
    | some none => .error .indeterminate
    | none => .error (.ub .oobRead)
  | store i c k, m => if i < m.length then runRaw k (m.set i (some c)) else .error (.ub .oobWrite)

/-- The memory object after the first `k` accesses (all of them, if there are fewer). -/
def afterRaw {α : Type} : (k : Nat) → Prog α → List (Slot Nat) → List (Slot Nat)
  | 0, _, m => m
  | _ + 1, ret _, m => m
  | _ + 1, fail _, m => m
  | k + 1, load i f, m =>
    match m[i]? with
    | some (some c) => afterRaw k (f c) m
    | _ => m
  | k + 1, store i c p, m => if i < m.length then afterRaw k p (m.set i (some c)) else m

end Prog

end Floaxie
