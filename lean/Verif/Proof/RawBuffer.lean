import Verif.Proof.Cost
import Verif.Model.RawBuffer

/-!
# Printing into a buffer that was not initialised
-/

namespace Floaxie
open FloatType Prog

namespace Prog
variable {α β : Type}

/-- The memory object with the value `d` where there is none. -/
def conc (d : Nat) (u : List (Slot Nat)) : List Nat := u.map (fun x => x.getD d)

/-- All characters of the set have values. -/
def Has (u : List (Slot Nat)) (S : Nat → Prop) : Prop := ∀ i, S i → ∃ c, u[i]? = some (some c)

/-- The program, on a memory object that has values in `A`, does what it does on the object with any
values filled in, and the characters in `R` have values afterwards. -/
def Adds (d : Nat) (p : Prog α) (m m' : List Nat) (a : α) (A R : Nat → Prop) : Prop :=
  ∀ u, conc d u = m → Has u A → ∃ u', runRaw p u = .ok (u', a) ∧ conc d u' = m' ∧
    (∀ i c : Nat, u[i]? = some (some c) → ∃ c' : Nat, u'[i]? = some (some c')) ∧ Has u' R

variable {d : Nat}

theorem conc_length (u : List (Slot Nat)) : (conc d u).length = u.length := by simp [conc]

theorem runRaw_bind {p : Prog α} {f : α → Prog β} : ∀ {u : List (Slot Nat)}, runRaw (p.bind f) u =
    (runRaw p u >>= fun x => runRaw (f x.2) x.1) := by
  induction p with
  | ret a => intro u; rfl
  | fail e => intro u; rfl
  | load i k ih =>
    intro u
    simp only [Prog.bind, runRaw]
    cases h : u[i]? with
    | none => rfl
    | some x =>
      cases x with
      | none => rfl
      | some c => exact ih c
  | store i c k ih =>
    intro u
    simp only [Prog.bind, runRaw]
    split_ifs
    · exact ih
    · rfl

theorem Adds.bind {p : Prog α} {f : α → Prog β} {m m1 m2 : List Nat} {a : α} {b : β} {A R S : Nat → Prop}
    (h : Adds d p m m1 a A R) (hf : Adds d (f a) m1 m2 b (fun i => A i ∨ R i) S) :
    Adds d (p >>= f) m m2 b A (fun i => R i ∨ S i) := by
  intro u hu hA
  obtain ⟨u1, e1, e2, e3, e4⟩ := h u hu hA
  obtain ⟨u2, g1, g2, g3, g4⟩ := hf u1 e2 (by
    rintro i (hi | hi)
    · obtain ⟨c, hc⟩ := hA i hi; exact e3 i c hc
    · exact e4 i hi)
  refine ⟨u2, ?_, g2, ?_, ?_⟩
  · change runRaw (p.bind f) u = _
    rw [runRaw_bind, e1]
    exact g1
  · intro i c hc
    obtain ⟨c', hc'⟩ := e3 i c hc
    exact g3 i c' hc'
  · rintro i (hi | hi)
    · obtain ⟨c, hc⟩ := e4 i hi; exact g3 i c hc
    · exact g4 i hi

/-- Ask for more, promise less. -/
theorem Adds.weaken {p : Prog α} {m m' : List Nat} {a : α} {A A' R R' : Nat → Prop} (h : Adds d p m m' a A R)
    (hA : ∀ i, A i → A' i) (hR : ∀ i, R' i → R i ∨ A' i) : Adds d p m m' a A' R' := by
  intro u hu hA'
  obtain ⟨u1, e1, e2, e3, e4⟩ := h u hu (fun i hi => hA' i (hA i hi))
  refine ⟨u1, e1, e2, e3, fun i hi => ?_⟩
  rcases hR i hi with g | g
  · exact e4 i g
  · obtain ⟨c, hc⟩ := hA' i g; exact e3 i c hc

theorem Adds.pure (a : α) (m : List Nat) {A : Nat → Prop} : Adds d (pure a) m m a A (fun _ => False) :=
  fun u hu _ => ⟨u, rfl, hu, fun _ c hc => ⟨c, hc⟩, fun _ h => h.elim⟩

theorem Adds.lift {x : M α} {a : α} (h : x = .ok a) (m : List Nat) {A : Nat → Prop} :
    Adds d (lift x) m m a A (fun _ => False) := by subst h; exact Adds.pure a m

theorem conc_set (u : List (Slot Nat)) (i c : Nat) : conc d (u.set i (some c)) = (conc d u).set i c := by
  simp [conc, List.map_set]

theorem Adds.wr {i c : Nat} {m m' : List Nat} (h : Floaxie.wr m i c = .ok m') {A : Nat → Prop} :
    Adds d (wr i c) m m' () A (fun j => j = i) := by
  unfold Floaxie.wr at h
  split_ifs at h with hl
  rw [Except.ok.injEq] at h
  subst h
  intro u hu hA
  subst hu
  rw [conc_length] at hl
  refine ⟨u.set i (some c), ?_, conc_set _ _ _, ?_, ?_⟩
  · unfold Prog.wr
    rw [runRaw, if_pos hl]
    rfl
  · intro j c' hj
    by_cases hij : i = j
    · subst hij; exact ⟨c, by rw [List.getElem?_set_self hl]⟩
    · exact ⟨c', by rw [List.getElem?_set_ne hij]; exact hj⟩
  · rintro j rfl
    exact ⟨c, by rw [List.getElem?_set_self hl]⟩

theorem Adds.stores {i : Nat} {cs m m' : List Nat} {A : Nat → Prop} (h : wrStr m i cs = .ok m') :
    Adds d (stores i cs) m m' () A (fun j => i ≤ j ∧ j < i + cs.length) := by
  induction cs generalizing i m A with
  | nil =>
    rw [wrStr] at h
    cases h
    exact (Adds.pure () _).weaken (fun _ h => h) (fun j hj => by have := List.length_nil (α := Nat); omega)
  | cons c cs ih =>
    rw [wrStr] at h
    obtain ⟨m1, h1, h2⟩ := bindOk h
    have := (Adds.wr (d := d) (A := A) h1).bind (f := fun _ => Prog.stores (i + 1) cs) (ih h2)
    refine Adds.weaken (p := Prog.stores i (c :: cs)) this (fun _ h => h) (fun j hj => ?_)
    simp only [List.length_cons] at hj
    omega

theorem wrStr_of_take {cs : List Nat} : ∀ {m : List Nat} {i : Nat}, i + cs.length ≤ m.length →
    wrStr m i cs = .ok (m.take i ++ cs ++ m.drop (i + cs.length)) := by
  induction cs with
  | nil => intro m i h; simp [wrStr]
  | cons c cs ih =>
    intro m i h
    simp only [List.length_cons] at h
    rw [wrStr]
    have e : Floaxie.wr m i c = .ok (m.set i c) := by unfold Floaxie.wr; rw [if_pos (by omega)]
    rw [e]
    change wrStr (m.set i c) (i + 1) cs = _
    rw [ih (by simpa using by omega)]
    congr 1
    have e : (m.set i c).take (i + 1) = m.take i ++ [c] := by
      rw [List.take_add_one, List.getElem?_set_self (by omega)]
      simp [List.take_set_of_le]
    rw [e]
    have e2 : (m.set i c).drop (i + 1 + cs.length) = m.drop (i + (cs.length + 1)) := by
      rw [List.drop_set_of_lt (by omega)]
      congr 1
      omega
    rw [e2]
    simp

theorem memset_stores (i c n : Nat) : memset i c n = stores i (List.replicate n c) := by
  induction n generalizing i with
  | zero => rfl
  | succ n ih => rw [memset, ih]; rfl

theorem Adds.memset {i c n : Nat} {m m' : List Nat} {A : Nat → Prop} (h : Floaxie.memset m i c n = .ok m') :
    Adds d (memset i c n) m m' () A (fun j => i ≤ j ∧ j < i + n) := by
  unfold Floaxie.memset at h
  split_ifs at h with hl
  have e := wrStr_of_take (m := m) (cs := List.replicate n c) (i := i) (by simpa using hl)
  rw [List.length_replicate, h] at e
  rw [memset_stores]
  have := Adds.stores (d := d) (A := A) e
  rwa [List.length_replicate] at this

theorem Adds.loads {i n : Nat} {m : List Nat} {A : Nat → Prop} (hl : i + n ≤ m.length) (hA : ∀ j, i ≤ j → j < i + n → A j) :
    Adds d (loads i n) m m ((m.drop i).take n) A (fun _ => False) := by
  intro u hu hH
  refine ⟨u, ?_, hu, fun _ c hc => ⟨c, hc⟩, fun _ h => h.elim⟩
  induction n generalizing i with
  | zero => simp [Prog.loads, runRaw]
  | succ n ih =>
    obtain ⟨c, hc⟩ := hH i (hA i (by omega) (by omega))
    simp only [Prog.loads, runRaw, hc]
    rw [runRaw_bind, ih (by omega) (fun j h1 h2 => hA j (by omega) (by omega))]
    change Except.ok _ = _
    have hm : m[i]? = some c := by
      rw [← hu]; simp [conc, hc]
    congr 2
    rw [List.drop_eq_getElem_cons (by omega : i < m.length), List.take_succ_cons]
    obtain ⟨_, h⟩ := List.getElem?_eq_some_iff.mp hm
    rw [h]

theorem Adds.memmove {dst src n : Nat} {m m' : List Nat} {A : Nat → Prop} (h : Floaxie.memmove m dst src n = .ok m')
    (hA : ∀ j, src ≤ j → j < src + n → A j) :
    Adds d (memmove dst src n) m m' () A (fun j => dst ≤ j ∧ j < dst + n) := by
  unfold Floaxie.memmove at h
  split_ifs at h with h1 h2
  have hl : ((m.drop src).take n).length = n := by simp; omega
  have e := wrStr_of_take (m := m) (cs := (m.drop src).take n) (i := dst) (by rw [hl]; exact h2)
  rw [hl, h] at e
  have := (Adds.loads (d := d) (A := A) h1 hA).bind (f := fun cs => Prog.stores dst cs) (Adds.stores e)
  refine Adds.weaken (p := Prog.memmove dst src n) this (fun _ h => h) (fun j hj => ?_)
  rw [hl]
  exact Or.inl (Or.inr hj)

end Prog

variable {d : Nat} {A : Nat → Prop}

theorem adds_genIntLoop (o : Nat) : ∀ (kappa div p1 : Nat) (m : List Nat) (len : Nat) {m' : List Nat} {l k : Nat} {A : Nat → Prop},
    genIntLoop o kappa div p1 m len = .ok (m', l, k) →
      Adds d (genIntLoopP o kappa div p1 len) m m' (l, k) A (fun j => o + len ≤ j ∧ j < o + l)
  | 0, _, _, m, len, m', l, k, A, h => by
    rw [genIntLoop, Except.ok.injEq, Prod.mk.injEq, Prod.mk.injEq] at h
    obtain ⟨rfl, rfl, rfl⟩ := h
    exact (Adds.pure _ _).weaken (fun _ h => h) (fun j hj => by omega)
  | kappa + 1, div, p1, m, len, m', l, k, A, h => by
    rw [genIntLoop] at h
    rw [genIntLoopP]
    split_ifs at h ⊢ with h1 h2
    · obtain ⟨m1, e1, e2⟩ := bindOk h
      refine (Adds.bind (Adds.wr e1) (adds_genIntLoop o _ _ _ _ _ e2)).weaken (fun _ h => h) (fun j hj => ?_)
      omega
    · rw [Except.ok.injEq, Prod.mk.injEq, Prod.mk.injEq] at h
      obtain ⟨rfl, rfl, rfl⟩ := h
      exact (Adds.pure _ _).weaken (fun _ h => h) (fun j hj => by omega)

theorem adds_genFracLoop (T : FloatType) (o s oneF : Nat) (some : Bool) :
    ∀ (fuel p2 delta : Nat) (m : List Nat) (len kappa : Nat) {m' : List Nat} {l k : Nat} {A : Nat → Prop},
    genFracLoop T o s oneF some fuel p2 delta m len kappa = .ok (m', l, k) →
      Adds d (genFracLoopP T o s oneF some fuel p2 delta len kappa) m m' (l, k) A (fun j => o + len ≤ j ∧ j < o + l)
  | 0, _, _, m, len, _, m', l, k, A, h => by cases h
  | fuel + 1, p2, delta, m, len, kappa, m', l, k, A, h => by
    rw [genFracLoop] at h
    rw [genFracLoopP]
    split_ifs at h ⊢ with h1
    · obtain ⟨⟨m1, l1⟩, e1, e2⟩ := bindOk h
      dsimp only at e2
      split_ifs at e1 with hd
      · obtain ⟨m2, e3, e4⟩ := bindOk e1
        simp only [pure, Except.pure, Except.ok.injEq, Prod.mk.injEq] at e4
        obtain ⟨rfl, rfl⟩ := e4
        have c1 := fun A => adds_genFracLoop (A := A) T o s oneF some _ _ _ _ _ _ e2
        refine Adds.weaken (Adds.bind (a := len + 1) (m1 := m2) (R := fun j => j = o + len ∨ False) (by
          rw [if_pos hd]
          exact Adds.bind (Adds.wr e3) (Adds.pure _ _)) (c1 _)) (fun _ h => h) (fun j hj => ?_)
        omega
      · simp only [pure, Except.pure, Except.ok.injEq, Prod.mk.injEq] at e1
        obtain ⟨rfl, rfl⟩ := e1
        have c1 := fun A => adds_genFracLoop (A := A) T o s oneF some _ _ _ _ _ _ e2
        refine Adds.weaken (Adds.bind (a := len) (m1 := m) (R := fun _ => False) (by
          rw [if_neg hd]
          exact Adds.pure _ _) (c1 _)) (fun _ h => h) (fun j hj => ?_)
        omega
    · rw [Except.ok.injEq, Prod.mk.injEq, Prod.mk.injEq] at h
      obtain ⟨rfl, rfl, rfl⟩ := h
      exact (Adds.pure _ _).weaken (fun _ h => h) (fun j hj => by omega)

/-- Digit generation gives all its digits a value. -/
theorem adds_digitGen (T : FloatType) (Mp Mm : DiyFp) (o : Nat) (K : Int) {m m' : List Nat} {l : Nat} {k : Int}
    (h : digitGen T Mp Mm m o K = .ok (m', l, k)) :
    Adds d (digitGenP T Mp Mm o K) m m' (l, k) A (fun j => o ≤ j ∧ j < o + l) := by
  unfold digitGen at h
  unfold digitGenP
  obtain ⟨_, e1, h⟩ := bindOk h
  obtain ⟨delta, e2, h⟩ := bindOk h
  obtain ⟨oneF, e3, h⟩ := bindOk h
  obtain ⟨_, e4, h⟩ := bindOk h
  have drop : ∀ {R : Nat → Prop} (j : Nat), (o ≤ j ∧ j < o + l) → (False ∨ False ∨ False ∨ False ∨ (o ≤ j ∧ j < o + l)) ∨ R j :=
    fun j hj => Or.inl (Or.inr (Or.inr (Or.inr (Or.inr hj))))
  refine Adds.weaken (Adds.bind (Adds.lift e1 _) (Adds.bind (Adds.lift e2 _) (Adds.bind (Adds.lift e3 _) (Adds.bind (Adds.lift e4 _)
    (S := fun j => o ≤ j ∧ j < o + l) ?_)))) (fun _ h => h) drop
  dsimp only at h ⊢
  by_cases h1 : Mp.f >>> (-Mp.e).toNat % 2 ^ 32 ≠ 0
  · rw [if_pos h1] at h ⊢
    obtain ⟨⟨m1, l1, k1⟩, e5, h⟩ := bindOk h
    dsimp only at h ⊢
    split_ifs at h ⊢ with h2
    · simp only [pure, Except.pure, Except.ok.injEq, Prod.mk.injEq] at h
      obtain ⟨rfl, rfl, rfl⟩ := h
      refine Adds.weaken (Adds.bind (adds_genIntLoop _ _ _ _ _ _ e5) (Adds.pure _ _)) (fun _ h => h) (fun j hj => ?_)
      omega
    · obtain ⟨m2, e6, h⟩ := bindOk h
      obtain ⟨⟨m3, l3, k3⟩, e7, h⟩ := bindOk h
      simp only [pure, Except.pure, Except.ok.injEq, Prod.mk.injEq] at h
      obtain ⟨rfl, rfl, rfl⟩ := h
      refine Adds.weaken (Adds.bind (adds_genIntLoop _ _ _ _ _ _ e5) (Adds.bind (Adds.memset e6)
        (Adds.bind (adds_genFracLoop _ _ _ _ _ _ _ _ _ _ _ e7) (Adds.pure _ _)))) (fun _ h => h) (fun j hj => ?_)
      omega
  · rw [if_neg h1] at h ⊢
    obtain ⟨⟨m3, l3, k3⟩, e7, h⟩ := bindOk h
    simp only [pure, Except.pure, Except.ok.injEq, Prod.mk.injEq] at h
    obtain ⟨rfl, rfl, rfl⟩ := h
    refine Adds.weaken (Adds.bind (adds_genFracLoop _ _ _ _ _ _ _ _ _ _ _ e7) (Adds.pure _ _)) (fun _ h => h) (fun j hj => ?_)
    omega

theorem adds_grisu2 [FpEval] (T : FloatType) (bits o : Nat) {m m' : List Nat} {l : Nat} {k : Int}
    (h : grisu2 T bits m o = .ok (m', l, k)) : Adds d (grisu2S T bits o) m m' (l, k) A (fun j => o ≤ j ∧ j < o + l) := by
  unfold grisu2 grisu2At at h
  unfold grisu2S
  obtain ⟨⟨wm, wp⟩, e1, h⟩ := bindOk h
  obtain ⟨c, e2, h⟩ := bindOk h
  exact Adds.weaken (Adds.bind (Adds.lift e1 _) (Adds.bind (Adds.lift e2 _) (adds_digitGen T _ _ _ _ h))) (fun _ h => h)
    (fun j hj => Or.inl (Or.inr (Or.inr hj)))

theorem adds_fillExponent (K o : Nat) {m m' : List Nat} {x : Nat} (h : fillExponent K m o = .ok (m', x)) :
    Adds d (fillExponentP K o) m m' x A (fun _ => False) := by
  unfold fillExponent at h
  unfold fillExponentP
  obtain ⟨m1, e1, h⟩ := bindOk h
  dsimp only at h ⊢
  split at h
  · next d0 d1 h0 h1 =>
    rw [h0, h1]
    obtain ⟨m2, e2, h⟩ := bindOk h
    obtain ⟨m3, e3, h⟩ := bindOk h
    obtain ⟨m4, e4, h⟩ := bindOk h
    simp only [pure, Except.pure, Except.ok.injEq, Prod.mk.injEq] at h
    obtain ⟨rfl, rfl⟩ := h
    exact Adds.weaken (Adds.bind (Adds.wr e1) (Adds.bind (Adds.wr e2) (Adds.bind (Adds.wr e3) (Adds.bind (Adds.wr e4) (Adds.pure _ _)))))
      (fun _ h => h) (fun _ h => h.elim)
  · cases h

theorem adds_printScientific (o len : Nat) (dotPos : Int) {m m' : List Nat} {x : Nat}
    (hA : ∀ j, o ≤ j → j < o + len → A j) (h : printScientific m o len dotPos = .ok (m', x)) :
    Adds d (printScientificP o len dotPos) m m' x A (fun _ => False) := by
  unfold printScientific at h
  unfold printScientificP
  obtain ⟨⟨m1, o1⟩, e1, h⟩ := bindOk h
  dsimp only at h
  obtain ⟨m2, e2, h⟩ := bindOk h
  obtain ⟨m3, e3, h⟩ := bindOk h
  obtain ⟨⟨m4, n⟩, e4, h⟩ := bindOk h
  simp only [pure, Except.pure, Except.ok.injEq, Prod.mk.injEq] at h
  obtain ⟨rfl, rfl⟩ := h
  split_ifs at e1 with hl
  · obtain ⟨m5, e5, h⟩ := bindOk e1
    obtain ⟨m6, e6, h⟩ := bindOk h
    simp only [pure, Except.pure, Except.ok.injEq, Prod.mk.injEq] at h
    obtain ⟨rfl, rfl⟩ := h
    refine Adds.weaken (Adds.bind (R := fun j => (o + 2 ≤ j ∧ j < o + 2 + (len - 1)) ∨ j = o + 1 ∨ False) (a := o + len) (m1 := m6) ?_ (Adds.bind (Adds.wr e2) (Adds.bind (Adds.wr e3) (Adds.bind (adds_fillExponent _ _ e4) (Adds.pure _ _))))) (fun _ h => h) (fun _ h => h.elim)
    rw [if_pos hl]
    exact Adds.bind (Adds.memmove e5 (fun j h1 h2 => hA j (by omega) (by omega))) (Adds.bind (Adds.wr e6) (Adds.pure _ _))
  · simp only [pure, Except.pure, Except.ok.injEq, Prod.mk.injEq] at e1
    obtain ⟨rfl, rfl⟩ := e1
    refine Adds.weaken (Adds.bind (R := fun _ => False) (a := o) (m1 := m) ?_ (Adds.bind (Adds.wr e2) (Adds.bind (Adds.wr e3) (Adds.bind (adds_fillExponent _ _ e4) (Adds.pure _ _))))) (fun _ h => h) (fun _ h => h.elim)
    rw [if_neg hl]
    exact Adds.pure _ _

theorem adds_printDecimal (o len : Nat) (k : Int) {m m' : List Nat} {x : Nat}
    (hA : ∀ j, o ≤ j → j < o + len → A j) (h : printDecimal m o len k = .ok (m', x)) :
    Adds d (printDecimalP o len k) m m' x A (fun _ => False) := by
  unfold printDecimal at h
  unfold printDecimalP
  obtain ⟨m1, e1, h⟩ := bindOk h
  obtain ⟨m2, e2, h⟩ := bindOk h
  obtain ⟨m3, e3, h⟩ := bindOk h
  obtain ⟨m4, e4, h⟩ := bindOk h
  obtain ⟨m5, e5, h⟩ := bindOk h
  simp only [pure, Except.pure, Except.ok.injEq, Prod.mk.injEq] at h
  obtain ⟨rfl, rfl⟩ := h
  refine Adds.weaken (Adds.bind (Adds.memmove e1 (fun j h1 h2 => hA j (by omega) ?_)) (Adds.bind (Adds.memset e2) (Adds.bind (Adds.memset e3)
    (Adds.bind (Adds.wr e4) (Adds.bind (Adds.wr e5) (Adds.pure _ _)))))) (fun _ h => h) (fun _ h => h.elim)
  unfold positivePart at h1 h2
  omega

theorem adds_prettify (t o len : Nat) (k : Int) {m m' : List Nat} {x : Nat}
    (hA : ∀ j, o ≤ j → j < o + len → A j) (h : prettify t m o len k = .ok (m', x)) :
    Adds d (prettifyP t o len k) m m' x A (fun _ => False) := by
  unfold prettify at h
  unfold prettifyP
  dsimp only at h ⊢
  split at h
  · next hf => rw [hf]; exact adds_printDecimal _ _ _ hA h
  · next hf => rw [hf]; exact adds_printScientific _ _ _ hA h

/-- Printing reads nothing it has not written. -/
theorem adds_ftoa [FpEval] (T : FloatType) (bits : Nat) {m m' : List Nat} {x : Nat} (h : ftoa T bits m = .ok (m', x)) :
    Adds d (ftoaP T bits) m m' x A (fun _ => False) := by
  unfold ftoa at h
  unfold ftoaP
  generalize hs : (if isNegative T bits then 1 else 0 : Nat) = sg at h ⊢
  have word : ∀ (cs : List Nat) (y : Nat),
      (do let buf ← wrStr m 0 cs; pure (buf, y) : M (List Nat × Nat)) = .ok (m', x) →
      Adds d (do Prog.stores 0 cs; pure y) m m' x A (fun _ => False) := by
    intro cs y h
    obtain ⟨m1, e1, h⟩ := bindOk h
    simp only [pure, Except.pure, Except.ok.injEq, Prod.mk.injEq] at h
    obtain ⟨rfl, rfl⟩ := h
    exact Adds.weaken (Adds.bind (Adds.stores e1) (Adds.pure _ _)) (fun _ h => h) (fun _ h => h.elim)
  split_ifs at h ⊢
  · exact word _ _ h
  · exact word _ _ h
  · exact word _ _ h
  · exact word _ _ h
  · obtain ⟨m1, e1, h⟩ := bindOk h
    obtain ⟨⟨m2, len, K⟩, e2, h⟩ := bindOk h
    obtain ⟨⟨m3, n⟩, e3, h⟩ := bindOk h
    simp only [pure, Except.pure, Except.ok.injEq, Prod.mk.injEq] at h
    obtain ⟨rfl, rfl⟩ := h
    exact Adds.weaken (Adds.bind (Adds.wr e1) (Adds.bind (adds_grisu2 _ _ _ e2) (Adds.bind
      (adds_prettify _ _ _ _ (fun j h1 h2 => Or.inr ⟨h1, h2⟩) e3) (Adds.pure _ _)))) (fun _ h => h) (fun _ h => h.elim)

end Floaxie
