import Verif.Model.Alloc

/-!
# Specification: using the heap
-/

namespace Floaxie.Spec

/-- Blocks of the sizes in the list are requested one after the other, each given back before
the next one is requested, until a request is refused: whether all were granted, and the events. -/
def serve (H : Heap) : List Nat → List HeapEvent → Bool × List HeapEvent
  | [], l => (true, l)
  | n :: ns, l =>
    if H l n then serve H ns (l ++ [.request n true, .release n])
    else (false, l ++ [.request n false])

/-- Bytes granted minus bytes given back. -/
def inUse : List HeapEvent → Int
  | [] => 0
  | .request n true :: l => n + inUse l
  | .request _ false :: l => inUse l
  | .release n :: l => inUse l - n

end Floaxie.Spec
