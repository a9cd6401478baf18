import Verif.Proof.Steps
import Verif.Proof.Locale
import Verif.Prop.Total

/-!
# Counting accesses
-/

namespace Floaxie
open FloatType Prog

namespace Prog
variable {α β : Type}

theorem cost_bind_ok {p : Prog α} {f : α → Prog β} : ∀ {m m' : List Nat} {a : α}, run p m = .ok (m', a) →
    cost (p.bind f) m = cost p m + cost (f a) m' := by
  induction p with
  | ret a =>
    intro m m' a' h
    simp only [run, Except.ok.injEq, Prod.mk.injEq] at h
    obtain ⟨rfl, rfl⟩ := h
    simp [bind, cost]
  | fail e => intro m m' a h; cases h
  | load i k ih =>
    intro m m' a h
    simp only [bind, cost, run] at h ⊢
    cases hc : m[i]? with
    | none => rw [hc] at h; cases h
    | some c =>
      rw [hc] at h
      have := ih c h
      dsimp only
      omega
  | store i c k ih =>
    intro m m' a h
    simp only [bind, cost, run] at h ⊢
    split_ifs at h
    have := ih h
    omega

theorem cost_memset (i c n : Nat) (m : List Nat) : cost (memset i c n) m = n := by
  induction n generalizing i m with
  | zero => rfl
  | succ n ih => simp [memset, cost, ih]

theorem cost_stores (i : Nat) (cs m : List Nat) : cost (stores i cs) m = cs.length := by
  induction cs generalizing i m with
  | nil => rfl
  | cons c cs ih => simp [stores, cost, ih]

theorem cost_loads (i n : Nat) (m : List Nat) (h : i + n ≤ m.length) : cost (loads i n) m = n := by
  induction n generalizing i with
  | zero => rfl
  | succ n ih =>
    simp only [loads, cost]
    rw [List.getElem?_eq_getElem (by omega)]
    dsimp only
    rw [cost_bind_ok (run_loads (i + 1) n m (by omega)), ih (i + 1) (by omega)]
    rfl

theorem cost_memmove (dst src n : Nat) (m : List Nat) {m' : List Nat} (h : Floaxie.memmove m dst src n = .ok m') :
    cost (memmove dst src n) m = 2 * n := by
  unfold Floaxie.memmove at h
  split_ifs at h with h1 h2
  rw [memmove, cost_bind_ok (run_loads _ _ _ h1), cost_loads _ _ _ h1, cost_stores]
  simp
  omega

theorem cost_lift (x : M α) (m : List Nat) : cost (lift x) m = 0 := by cases x <;> rfl
theorem cost_wr (i c : Nat) (m : List Nat) : cost (wr i c) m = 1 := rfl

/-- The run completes, after `k` accesses. -/
def Costs (p : Prog α) (m m' : List Nat) (a : α) (k : Nat) : Prop := run p m = .ok (m', a) ∧ cost p m = k

theorem Costs.bind {p : Prog α} {f : α → Prog β} {m m1 m2 : List Nat} {a : α} {b : β} {k l : Nat}
    (h : Costs p m m1 a k) (h' : Costs (f a) m1 m2 b l) : Costs (p >>= f) m m2 b (k + l) :=
  ⟨run_bind_ok h.1 h'.1, by rw [bind_eq, cost_bind_ok h.1, h.2, h'.2]⟩

theorem Costs.pure (a : α) (m : List Nat) : Costs (pure a) m m a 0 := ⟨rfl, rfl⟩
theorem Costs.lift {x : M α} {a : α} (h : x = .ok a) (m : List Nat) : Costs (lift x) m m a 0 :=
  ⟨run_lift_ok h m, cost_lift x m⟩
theorem Costs.wr {i c : Nat} {m m' : List Nat} (h : Floaxie.wr m i c = .ok m') : Costs (wr i c) m m' () 1 :=
  ⟨run_wr_ok h, rfl⟩
theorem Costs.memset {i c n : Nat} {m m' : List Nat} (h : Floaxie.memset m i c n = .ok m') : Costs (memset i c n) m m' () n :=
  ⟨run_memset _ _ _ _ h, cost_memset _ _ _ _⟩
theorem Costs.memmove {dst src n : Nat} {m m' : List Nat} (h : Floaxie.memmove m dst src n = .ok m') :
    Costs (memmove dst src n) m m' () (2 * n) := ⟨run_memmove _ _ _ _ h, cost_memmove _ _ _ _ h⟩
theorem Costs.stores {i : Nat} {cs m m' : List Nat} (h : wrStr m i cs = .ok m') : Costs (stores i cs) m m' () cs.length :=
  ⟨run_wrStr _ _ _ h, cost_stores _ _ _⟩

end Prog

/-! ## Printing -/

theorem costs_genIntLoop (o : Nat) : ∀ (kappa div p1 : Nat) (m : List Nat) (len : Nat) {m' : List Nat} {l k : Nat},
    genIntLoop o kappa div p1 m len = .ok (m', l, k) → ∃ j, Costs (genIntLoopP o kappa div p1 len) m m' (l, k) j ∧ l = len + j
  | 0, _, _, m, len, m', l, k, h => by
    rw [genIntLoop, Except.ok.injEq, Prod.mk.injEq, Prod.mk.injEq] at h
    obtain ⟨rfl, rfl, rfl⟩ := h
    exact ⟨0, Costs.pure _ _, rfl⟩
  | kappa + 1, div, p1, m, len, m', l, k, h => by
    rw [genIntLoop] at h
    rw [genIntLoopP]
    split_ifs at h ⊢ with h1 h2
    · obtain ⟨m1, e1, e2⟩ := bindOk h
      obtain ⟨j, c1, c2⟩ := costs_genIntLoop o _ _ _ _ _ e2
      exact ⟨1 + j, Costs.bind (Costs.wr e1) c1, by omega⟩
    · rw [Except.ok.injEq, Prod.mk.injEq, Prod.mk.injEq] at h
      obtain ⟨rfl, rfl, rfl⟩ := h
      exact ⟨0, Costs.pure _ _, rfl⟩

theorem costs_genFracLoop (T : FloatType) (o s oneF : Nat) (some : Bool) :
    ∀ (fuel p2 delta : Nat) (m : List Nat) (len kappa : Nat) {m' : List Nat} {l k : Nat},
    genFracLoop T o s oneF some fuel p2 delta m len kappa = .ok (m', l, k) →
      ∃ j, Costs (genFracLoopP T o s oneF some fuel p2 delta len kappa) m m' (l, k) j ∧ l = len + j
  | 0, _, _, m, len, _, m', l, k, h => by cases h
  | fuel + 1, p2, delta, m, len, kappa, m', l, k, h => by
    rw [genFracLoop] at h
    rw [genFracLoopP]
    split_ifs at h ⊢ with h1
    · obtain ⟨⟨m1, l1⟩, e1, e2⟩ := bindOk h
      dsimp only at e2
      obtain ⟨j, c1, c2⟩ := costs_genFracLoop T o s oneF some _ _ _ _ _ _ e2
      split_ifs at e1 with hd
      · obtain ⟨m2, e3, e4⟩ := bindOk e1
        simp only [pure, Except.pure, Except.ok.injEq, Prod.mk.injEq] at e4
        obtain ⟨rfl, rfl⟩ := e4
        refine ⟨1 + 0 + j, Costs.bind ?_ c1, by omega⟩
        rw [if_pos hd]
        exact Costs.bind (Costs.wr e3) (Costs.pure _ _)
      · simp only [pure, Except.pure, Except.ok.injEq, Prod.mk.injEq] at e1
        obtain ⟨rfl, rfl⟩ := e1
        refine ⟨0 + j, Costs.bind ?_ c1, by omega⟩
        rw [if_neg hd]
        exact Costs.pure _ _
    · rw [Except.ok.injEq, Prod.mk.injEq, Prod.mk.injEq] at h
      obtain ⟨rfl, rfl, rfl⟩ := h
      exact ⟨0, Costs.pure _ _, rfl⟩

/-- Digit generation writes each digit once. -/
theorem costs_digitGen (T : FloatType) (Mp Mm : DiyFp) (o : Nat) (K : Int) {m m' : List Nat} {l : Nat} {k : Int}
    (h : digitGen T Mp Mm m o K = .ok (m', l, k)) : Costs (digitGenP T Mp Mm o K) m m' (l, k) l := by
  unfold digitGen at h
  unfold digitGenP
  obtain ⟨_, e1, h⟩ := bindOk h
  obtain ⟨delta, e2, h⟩ := bindOk h
  obtain ⟨oneF, e3, h⟩ := bindOk h
  obtain ⟨_, e4, h⟩ := bindOk h
  have hz : l = 0 + (0 + (0 + (0 + l))) := by omega
  rw [hz]
  refine Costs.bind (Costs.lift e1 _) ?_
  refine Costs.bind (Costs.lift e2 _) ?_
  refine Costs.bind (Costs.lift e3 _) ?_
  refine Costs.bind (Costs.lift e4 _) ?_
  rw [← hz]
  dsimp only at h ⊢
  by_cases h1 : Mp.f >>> (-Mp.e).toNat % 2 ^ 32 ≠ 0
  · rw [if_pos h1] at h ⊢
    obtain ⟨⟨m1, l1, k1⟩, e5, h⟩ := bindOk h
    obtain ⟨j1, c1, d1⟩ := costs_genIntLoop _ _ _ _ _ _ e5
    dsimp only at h ⊢
    split_ifs at h ⊢ with h2
    · simp only [pure, Except.pure, Except.ok.injEq, Prod.mk.injEq] at h
      obtain ⟨rfl, rfl, rfl⟩ := h
      have := Costs.bind (f := fun x : Nat × Nat => (pure (x.1, K + (x.2 : Int)) : Prog (Nat × Int))) c1 (Costs.pure _ _)
      convert this using 1
      omega
    · obtain ⟨m2, e6, h⟩ := bindOk h
      obtain ⟨⟨m3, l3, k3⟩, e7, h⟩ := bindOk h
      obtain ⟨j2, c2, d2⟩ := costs_genFracLoop _ _ _ _ _ _ _ _ _ _ _ e7
      simp only [pure, Except.pure, Except.ok.injEq, Prod.mk.injEq] at h
      obtain ⟨rfl, rfl, rfl⟩ := h
      have e : l3 = j1 + (k1 + (j2 + 0)) := by omega
      rw [show (Costs _ m m3 (l3, K - (k3 : Int)) l3) = (Costs _ m m3 (l3, K - (k3 : Int)) (j1 + (k1 + (j2 + 0)))) by rw [← e]]
      exact Costs.bind c1 (Costs.bind (Costs.memset e6) (Costs.bind c2 (Costs.pure _ _)))
  · rw [if_neg h1] at h ⊢
    obtain ⟨⟨m3, l3, k3⟩, e7, h⟩ := bindOk h
    obtain ⟨j2, c2, d2⟩ := costs_genFracLoop _ _ _ _ _ _ _ _ _ _ _ e7
    simp only [pure, Except.pure, Except.ok.injEq, Prod.mk.injEq] at h
    obtain ⟨rfl, rfl, rfl⟩ := h
    have e : l3 = j2 + 0 := by omega
    rw [show (Costs _ m m3 (l3, K - (k3 : Int)) l3) = (Costs _ m m3 (l3, K - (k3 : Int)) (j2 + 0)) by rw [← e]]
    exact Costs.bind c2 (Costs.pure _ _)

theorem costs_grisu2 [FpEval] (T : FloatType) (bits o : Nat) {m m' : List Nat} {l : Nat} {k : Int}
    (h : grisu2 T bits m o = .ok (m', l, k)) : Costs (grisu2S T bits o) m m' (l, k) l := by
  unfold grisu2 grisu2At at h
  unfold grisu2S
  obtain ⟨⟨wm, wp⟩, e1, h⟩ := bindOk h
  obtain ⟨c, e2, h⟩ := bindOk h
  have hz : l = 0 + (0 + l) := by omega
  rw [hz]
  refine Costs.bind (Costs.lift e1 _) ?_
  refine Costs.bind (Costs.lift e2 _) ?_
  rw [← hz]
  exact costs_digitGen T _ _ _ _ h

theorem costs_fillExponent (K o : Nat) {m m' : List Nat} {x : Nat} (h : fillExponent K m o = .ok (m', x)) :
    Costs (fillExponentP K o) m m' x 4 ∧ 2 ≤ x := by
  unfold fillExponent at h
  unfold fillExponentP
  obtain ⟨m1, e1, h⟩ := bindOk h
  dsimp only at h ⊢
  split at h
  · next d0 d1 h0 h1 =>
    rw [h0, h1]
    obtain ⟨m2, e2, h⟩ := bindOk h
    obtain ⟨m3, e3, h⟩ := bindOk h
    obtain ⟨m4, e4, h⟩ := bindOk h
    simp only [pure, Except.pure, Except.ok.injEq, Prod.mk.injEq] at h
    obtain ⟨rfl, rfl⟩ := h
    exact ⟨Costs.bind (l := 1 + (1 + (1 + 0))) (Costs.wr e1) (Costs.bind (Costs.wr e2) (Costs.bind (Costs.wr e3) (Costs.bind (Costs.wr e4) (Costs.pure _ _)))),
      by omega⟩
  · cases h

theorem costs_printScientific (o len : Nat) (dotPos : Int) {m m' : List Nat} {x : Nat}
    (h : printScientific m o len dotPos = .ok (m', x)) :
    ∃ k, Costs (printScientificP o len dotPos) m m' x k ∧ k ≤ 2 * x + 1 ∧ len ≤ x := by
  unfold printScientific at h
  unfold printScientificP
  obtain ⟨⟨m1, o1⟩, e1, h⟩ := bindOk h
  dsimp only at h
  obtain ⟨m2, e2, h⟩ := bindOk h
  obtain ⟨m3, e3, h⟩ := bindOk h
  obtain ⟨⟨m4, n⟩, e4, h⟩ := bindOk h
  simp only [pure, Except.pure, Except.ok.injEq, Prod.mk.injEq] at h
  obtain ⟨rfl, rfl⟩ := h
  obtain ⟨c4, c5⟩ := costs_fillExponent _ _ e4
  split_ifs at e1 with hl
  · obtain ⟨m5, e5, h⟩ := bindOk e1
    obtain ⟨m6, e6, h⟩ := bindOk h
    simp only [pure, Except.pure, Except.ok.injEq, Prod.mk.injEq] at h
    obtain ⟨rfl, rfl⟩ := h
    refine ⟨_, Costs.bind (a := o + len) (m1 := m6) (k := 2 * (len - 1) + (1 + 0)) ?_ (Costs.bind (Costs.wr e2) (Costs.bind (Costs.wr e3) (Costs.bind c4 (Costs.pure _ _)))), ?_, ?_⟩
    · rw [if_pos hl]
      exact Costs.bind (Costs.memmove e5) (Costs.bind (Costs.wr e6) (Costs.pure _ _))
    · rw [if_pos hl]; omega
    · omega
  · simp only [pure, Except.pure, Except.ok.injEq, Prod.mk.injEq] at e1
    obtain ⟨rfl, rfl⟩ := e1
    refine ⟨_, Costs.bind (a := o) (m1 := m) (k := 0) ?_ (Costs.bind (Costs.wr e2) (Costs.bind (Costs.wr e3) (Costs.bind c4 (Costs.pure _ _)))), ?_, ?_⟩
    · rw [if_neg hl]
      exact Costs.pure _ _
    · omega
    · omega

theorem costs_printDecimal (o len : Nat) (k : Int) {m m' : List Nat} {x : Nat}
    (h : printDecimal m o len k = .ok (m', x)) :
    ∃ j, Costs (printDecimalP o len k) m m' x j ∧ j ≤ 2 * x + 1 ∧ len ≤ x := by
  unfold printDecimal at h
  unfold printDecimalP
  obtain ⟨m1, e1, h⟩ := bindOk h
  obtain ⟨m2, e2, h⟩ := bindOk h
  obtain ⟨m3, e3, h⟩ := bindOk h
  obtain ⟨m4, e4, h⟩ := bindOk h
  obtain ⟨m5, e5, h⟩ := bindOk h
  simp only [pure, Except.pure, Except.ok.injEq, Prod.mk.injEq] at h
  obtain ⟨rfl, rfl⟩ := h
  refine ⟨_, Costs.bind (Costs.memmove e1) (Costs.bind (Costs.memset e2) (Costs.bind (Costs.memset e3) (Costs.bind (Costs.wr e4) (Costs.bind (Costs.wr e5) (Costs.pure _ _))))), ?_, ?_⟩
  · unfold positivePart; split_ifs <;> omega
  · unfold positivePart; split_ifs <;> omega

theorem costs_prettify (t o len : Nat) (k : Int) {m m' : List Nat} {x : Nat}
    (h : prettify t m o len k = .ok (m', x)) : ∃ j, Costs (prettifyP t o len k) m m' x j ∧ j ≤ 2 * x + 1 ∧ len ≤ x := by
  unfold prettify at h
  unfold prettifyP
  dsimp only at h ⊢
  split at h
  · next hf => rw [hf]; exact costs_printDecimal _ _ _ h
  · next hf => rw [hf]; exact costs_printScientific _ _ _ h

/-- Printing makes at most three accesses per character of the text, and a few more. -/
theorem costs_ftoa [FpEval] (T : FloatType) (bits : Nat) {m m' : List Nat} {x : Nat} (h : ftoa T bits m = .ok (m', x)) :
    cost (ftoaP T bits) m ≤ 3 * x + 2 := by
  have key : ∃ j, Costs (ftoaP T bits) m m' x j ∧ j ≤ 3 * x + 2 := by
    unfold ftoa at h
    unfold ftoaP
    generalize hs : (if isNegative T bits then 1 else 0 : Nat) = sg at h ⊢
    have word : ∀ (cs : List Nat) (y : Nat), cs.length ≤ 3 * y + 2 →
        (do let buf ← wrStr m 0 cs; pure (buf, y) : M (List Nat × Nat)) = .ok (m', x) →
        ∃ j, Costs (do Prog.stores 0 cs; pure y) m m' x j ∧ j ≤ 3 * x + 2 := by
      intro cs y hy h
      obtain ⟨m1, e1, h⟩ := bindOk h
      simp only [pure, Except.pure, Except.ok.injEq, Prod.mk.injEq] at h
      obtain ⟨rfl, rfl⟩ := h
      exact ⟨_, Costs.bind (Costs.stores e1) (Costs.pure _ _), by omega⟩
    split_ifs at h ⊢
    · exact word _ _ (by simp) h
    · exact word _ _ (by simp) h
    · exact word _ _ (by simp) h
    · exact word _ _ (by simp) h
    · obtain ⟨m1, e1, h⟩ := bindOk h
      obtain ⟨⟨m2, len, K⟩, e2, h⟩ := bindOk h
      obtain ⟨⟨m3, n⟩, e3, h⟩ := bindOk h
      obtain ⟨j, c1, c2, c3⟩ := costs_prettify _ _ _ _ e3
      simp only [pure, Except.pure, Except.ok.injEq, Prod.mk.injEq] at h
      obtain ⟨rfl, rfl⟩ := h
      exact ⟨_, Costs.bind (Costs.wr e1) (Costs.bind (costs_grisu2 _ _ _ e2) (Costs.bind c1 (Costs.pure _ _))), by omega⟩
  obtain ⟨j, h1, h2⟩ := key
  rw [h1.2]
  exact h2

end Floaxie
