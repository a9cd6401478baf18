import Verif.Model.StringAlloc
import Verif.Spec.Heap
import Verif.Proof.Alloc
import Verif.Prop.Eval
import Verif.Prop.Ftoa

/-!
# C84: dynamic memory of `to_string`
-/

namespace Floaxie

open FloatType Spec

/-- Bytes on the heap that belong to a string. -/
def Spec.heldBy (lib : StringLib) (o : StrObj) : Int :=
  match o.block with
  | none => 0
  | some c => (c + 1) * lib.charSize

/-- How many characters (without terminator) a string has room for. -/
def Spec.capacity (lib : StringLib) (o : StrObj) : Nat :=
  match o.block with
  | none => lib.inObject
  | some c => c

/-- The requests among the events, with the answers. -/
def Spec.requests : List HeapEvent → List (Nat × Bool)
  | [] => []
  | .request n g :: l => (n, g) :: requests l
  | .release _ :: l => requests l

theorem strMake_spec (lib : StringLib) (H : Heap) (n : Nat) (l : List HeapEvent) :
    (n ≤ lib.inObject ∧ strMake lib H n l = (.ok ⟨List.replicate n 0, none⟩, l)) ∨
    (lib.inObject < n ∧ H l (lib.bytes (lib.room n)) = true ∧ strMake lib H n l =
      (.ok ⟨List.replicate n 0, some (lib.room n)⟩, l ++ [.request (lib.bytes (lib.room n)) true])) ∨
    (lib.inObject < n ∧ H l (lib.bytes (lib.room n)) = false ∧ strMake lib H n l =
      (.error .badAlloc, l ++ [.request (lib.bytes (lib.room n)) false])) := by
  unfold strMake
  by_cases h : n ≤ lib.inObject
  · rw [if_pos h]; exact .inl ⟨h, rfl⟩
  · rw [if_neg h]
    cases hg : H l (lib.bytes (lib.room n))
    · refine .inr (.inr ⟨by omega, rfl, ?_⟩)
      simp [bind, A.allocThrow, hg]
    · refine .inr (.inl ⟨by omega, rfl, ?_⟩)
      simp [bind, A.allocThrow, hg, pure]

theorem strShrink_spec (lib : StringLib) (hlib : lib.Lawful) (H : Heap) (s : StrObj) (hs : s.chars.length ≤ capacity lib s)
    (l : List HeapEvent) : ∃ evs, (requests evs).length ≤ 1 ∧ (s.block = none → evs = []) ∧
    ((∃ o, strShrink lib H s l = (.ok o, l ++ evs) ∧ o.chars = s.chars ∧ o.chars.length ≤ capacity lib o ∧
        heldBy lib s + inUse evs = heldBy lib o) ∨
      (strShrink lib H s l = (.error .badAlloc, l ++ evs) ∧ heldBy lib s + inUse evs = 0 ∧ lib.fitThrows = true ∧
        ∃ n, (n, false) ∈ requests evs)) := by
  unfold strShrink
  cases hb : s.block with
  | none =>
    exact ⟨[], by simp [requests], fun _ => rfl, .inl ⟨s, by rw [List.append_nil]; rfl, rfl, hs, by simp [inUse]⟩⟩
  | some c =>
    dsimp only
    have hh : heldBy lib s = lib.bytes c := by unfold heldBy StringLib.bytes; rw [hb]; push_cast; rfl
    have hc : capacity lib s = c := by unfold capacity; rw [hb]
    cases hf : lib.fit s.chars.length c with
    | none =>
      exact ⟨[], by simp [requests], nofun, .inl ⟨s, by rw [List.append_nil]; rfl, rfl, hs, by simp [inUse]⟩⟩
    | some c' =>
      obtain ⟨f1, f2⟩ := hlib.fit_smaller _ _ _ hf
      dsimp only
      by_cases h : c' ≤ lib.inObject
      · rw [if_pos h]
        exact ⟨[.release (lib.bytes c)], by simp [requests], nofun, .inl ⟨{ s with block := none }, rfl, rfl, f1.trans h,
          by rw [hh]; simp [inUse, heldBy]⟩⟩
      · rw [if_neg h]
        cases hg : H l (lib.bytes c')
        · cases ht : lib.fitThrows
          · refine ⟨[.request (lib.bytes c') false], by simp [requests], nofun, .inl ⟨s, ?_, rfl, hs, by simp [inUse]⟩⟩
            simp [bind, A.allocTry, hg, pure]
          · refine ⟨[.request (lib.bytes c') false, .release (lib.bytes c)], by simp [requests], nofun,
              .inr ⟨?_, by rw [hh]; simp [inUse], rfl, lib.bytes c', by simp [requests]⟩⟩
            simp [bind, A.allocTry, hg, strDestroy, hb, A.free]
        · refine ⟨[.request (lib.bytes c') true, .release (lib.bytes c)], by simp [requests], nofun,
            .inl ⟨{ s with block := some c' }, ?_, rfl, f1, ?_⟩⟩
          · simp [bind, A.allocTry, hg, pure, A.free]
          · rw [hh]; simp [inUse, heldBy, StringLib.bytes]

theorem inUse_append (a b : List HeapEvent) : inUse (a ++ b) = inUse a + inUse b := by
  induction a with
  | nil => simp [inUse]
  | cons e a ih =>
    rcases e with ⟨n, _ | _⟩ | n <;> simp only [List.cons_append, inUse, ih] <;> ring

theorem requests_append (a b : List HeapEvent) : requests (a ++ b) = requests a ++ requests b := by
  induction a with
  | nil => rfl
  | cons e a ih => rcases e with ⟨n, g⟩ | n <;> simp [requests, ih]

/-- **C84.** Whatever the library does where the standard leaves it a choice, and whatever
requests the heap refuses: `to_string` either returns the text of C11, in a string with
room for it, and the memory in use afterwards is that of the string it returns; or it
throws `std::bad_alloc`, because a request was refused, and has given everything back.
There are at most two requests, and none if the string object itself has room for
`max_buffer_size` characters; a refused request after the first one is harmless if
`shrink_to_fit` does not throw. -/
theorem C84_to_string (T : FloatType) (lib : StringLib) (hlib : lib.Lawful) (H : Heap) (bits : Nat) (hb : bits < 2 ^ T.W)
    (l : List HeapEvent) : ∃ s evs, Prints T bits s ∧
    ((∃ o, toBasicStringA lib H T bits l = (.ok o, l ++ evs) ∧ o.chars = s ∧ s.length ≤ capacity lib o ∧
        inUse evs = heldBy lib o) ∨
      (toBasicStringA lib H T bits l = (.error .badAlloc, l ++ evs) ∧ inUse evs = 0 ∧
        (lib.fitThrows = false → (requests evs).length = 1) ∧ ∃ n, (n, false) ∈ requests evs)) ∧
    (requests evs).length ≤ 2 ∧ (maxBufferSize T ≤ lib.inObject → evs = []) := by
  obtain ⟨t, h1, h2, h3⟩ := ftoa_total T bits hb
  have hf := h3 (List.replicate (maxBufferSize T) 0) (by simpa using h2)
  have hres : ∀ b, strResize ⟨t ++ 0 :: (List.replicate (maxBufferSize T) 0).drop (t.length + 1), b⟩
      ((t ++ 0 :: (List.replicate (maxBufferSize T) 0).drop (t.length + 1)).takeWhile (· ≠ 0)).length = ⟨t, b⟩ := by
    intro b
    have := cstr_append h1 ((List.replicate (maxBufferSize T) 0).drop (t.length + 1))
    unfold strResize
    unfold cstr at this
    rw [this]
    simp
  have key : ∀ b l', strMake lib H (maxBufferSize T) l = (.ok ⟨List.replicate (maxBufferSize T) 0, b⟩, l') →
      toBasicStringA lib H T bits l = strShrink lib H ⟨t, b⟩ l' := by
    intro b l' hm
    unfold toBasicStringA
    rw [A.bind_ok' hm]
    dsimp only
    rw [hf]
    show strShrink lib H (strResize _ _) l' = _
    rw [hres]
  refine ⟨t, ?_⟩
  rcases strMake_spec lib H (maxBufferSize T) l with ⟨a1, a2⟩ | ⟨a1, a3, a2⟩ | ⟨a1, a3, a2⟩
  · obtain ⟨evs, e1, e2, e3⟩ := strShrink_spec lib hlib H ⟨t, none⟩ (show t.length ≤ lib.inObject by omega) l
    obtain rfl := e2 rfl
    refine ⟨[], prints_of_ok h1 h2 h3, ?_, by omega, fun _ => rfl⟩
    rw [key _ _ a2]
    rcases e3 with ⟨o, o1, o2, o3, o4⟩ | ⟨-, -, -, n, hn⟩
    · exact .inl ⟨o, o1, o2, (by rw [o2] at o3; exact o3), by rw [← o4]; simp [heldBy]⟩
    · cases hn
  · have hr := hlib.room_enough (maxBufferSize T)
    obtain ⟨evs, e1, -, e3⟩ := strShrink_spec lib hlib H ⟨t, some (lib.room (maxBufferSize T))⟩
      (show t.length ≤ lib.room _ by omega) (l ++ [.request (lib.bytes (lib.room (maxBufferSize T))) true])
    have hh : inUse ([.request (lib.bytes (lib.room (maxBufferSize T))) true] ++ evs) =
        heldBy lib ⟨t, some (lib.room (maxBufferSize T))⟩ + inUse evs := by
      simp [inUse, heldBy, StringLib.bytes]
    refine ⟨[.request (lib.bytes (lib.room (maxBufferSize T))) true] ++ evs, prints_of_ok h1 h2 h3, ?_, ?_, fun h => by omega⟩
    · rw [key _ _ a2, hh]
      rcases e3 with ⟨o, o1, o2, o3, o4⟩ | ⟨o1, o2, o3, n, hn⟩
      · exact .inl ⟨o, by rw [o1, List.append_assoc], o2, (by rw [o2] at o3; exact o3), o4⟩
      · refine .inr ⟨by rw [o1, List.append_assoc], o2, fun h => (by rw [h] at o3; cases o3), n, ?_⟩
        rw [requests_append]
        exact List.mem_append_right _ hn
    · rw [requests_append, List.length_append]
      show 1 + _ ≤ 2
      omega
  · refine ⟨[.request (lib.bytes (lib.room (maxBufferSize T))) false], prints_of_ok h1 h2 h3,
      .inr ⟨?_, by simp [inUse], fun _ => rfl, _, List.mem_singleton.mpr rfl⟩, by simp [requests], fun h => by omega⟩
    unfold toBasicStringA
    rw [A.bind_error' a2]

/-- **C84, the end.** Destroying the returned string gives back all that is left. -/
theorem C84_destroyed (T : FloatType) (lib : StringLib) (hlib : lib.Lawful) (H : Heap) (bits : Nat) (hb : bits < 2 ^ T.W)
    (l l' : List HeapEvent) (o : StrObj) (h : toBasicStringA lib H T bits l = (.ok o, l')) :
    ∃ evs, strDestroy lib o l' = (.ok (), l ++ evs) ∧ inUse evs = 0 := by
  obtain ⟨s, evs, -, h1, -⟩ := C84_to_string T lib hlib H bits hb l
  rcases h1 with ⟨o', a1, -, -, a2⟩ | ⟨a1, -⟩
  · rw [h] at a1
    simp only [Prod.mk.injEq, Except.ok.injEq] at a1
    obtain ⟨rfl, rfl⟩ := a1
    unfold strDestroy
    cases hb : o.block with
    | none =>
      refine ⟨evs, rfl, ?_⟩
      rw [a2]; unfold heldBy; rw [hb]
    | some c =>
      refine ⟨evs ++ [.release (lib.bytes c)], by simp [A.free], ?_⟩
      rw [inUse_append, a2]; unfold heldBy; rw [hb]
      simp [inUse, StringLib.bytes]
  · rw [h] at a1
    simp at a1

/-- The string of a common library: 15 characters fit into the object, `shrink_to_fit` never throws. -/
def commonString : StringLib where
  charSize := 1
  inObject := 15
  room n := n
  fit n c := if n < c then some n else none
  fitThrows := false

theorem commonString_lawful : commonString.Lawful where
  room_enough _ := le_rfl
  fit_smaller n c c' h := by
    unfold commonString at h
    dsimp only at h
    split_ifs at h with hc
    cases h
    exact ⟨le_rfl, hc.le⟩

/-- With it `-2.1` is printed into a block of 35 bytes and then moved into the object; 1/3
has 18 characters and ends up in a block of 19 bytes; if that is refused, in the 35 bytes;
and if those are refused the exception is thrown. -/
example : toBasicStringA commonString (fun _ _ => true) .double 0xC000CCCCCCCCCCCD [] =
    (.ok ⟨chars "-2.1", none⟩, [.request 35 true, .release 35]) := by decide +kernel
example : toBasicStringA commonString (fun _ _ => true) .double 0x3FD5555555555555 [] =
    (.ok ⟨chars "0.3333333333333333", some 18⟩, [.request 35 true, .request 19 true, .release 35]) := by decide +kernel
example : toBasicStringA commonString (fun l _ => l.isEmpty) .double 0x3FD5555555555555 [] =
    (.ok ⟨chars "0.3333333333333333", some 34⟩, [.request 35 true, .request 19 false]) := by decide +kernel
example : toBasicStringA commonString (fun _ _ => false) .double 0x3FD5555555555555 [] =
    (.error .badAlloc, [.request 35 false]) := by decide +kernel

end Floaxie
