import Verif.Proof.Steps
import Mathlib.Algebra.BigOperators.Group.Finset.Basic
import Mathlib.Data.Fintype.BigOperators

/-!
# Calls in separate objects do not notice each other
-/

namespace Floaxie
open FloatType Prog

theorem region_length {mem : List Nat} {b s : Nat} (h : b + s ≤ mem.length) : (region mem b s).length = s := by
  simp [region]; omega

theorem region_get {mem : List Nat} {b s i : Nat} (h : i < s) : (region mem b s)[i]? = mem[b + i]? := by
  simp [region, h]

theorem region_set_in {mem : List Nat} {b s i c : Nat} (h : i < s) :
    region (mem.set (b + i) c) b s = (region mem b s).set i c := by
  apply List.ext_getElem?
  intro j
  simp only [region, List.getElem?_take, List.getElem?_drop, List.getElem?_set, List.length_take, List.length_drop]
  split_ifs <;> first | rfl | omega

theorem region_set_out {mem : List Nat} {b s a c : Nat} (h : a < b ∨ b + s ≤ a) :
    region (mem.set a c) b s = region mem b s := by
  apply List.ext_getElem?
  intro j
  simp only [region, List.getElem?_take, List.getElem?_drop, List.getElem?_set]
  split_ifs <;> first | rfl | omega

variable {ι ρ : Type} [DecidableEq ι]

/-- The calls of `t0`, each of which run alone ends as `fin` says, in objects of
their own, except that calls that never write may share. -/
structure Apart (base size : ι → Nat) (t0 : Threads ι ρ) (fin : ι → List Nat × ρ) : Prop where
  inside : ∀ n, base n + size n ≤ t0.mem.length
  alone : ∀ n, run (t0.prog n) (region t0.mem (base n) (size n)) = .ok (fin n)
  apart : ∀ n n', n ≠ n' → (NoStore (t0.prog n) ∧ NoStore (t0.prog n')) ∨
    base n + size n ≤ base n' ∨ base n' + size n' ≤ base n

/-- What stays true while the calls proceed. -/
structure Going (base size : ι → Nat) (t0 : Threads ι ρ) (fin : ι → List Nat × ρ) (t : Threads ι ρ) : Prop where
  len : t.mem.length = t0.mem.length
  alone : ∀ n, run (t.prog n) (region t.mem (base n) (size n)) = .ok (fin n)
  quiet : ∀ n, NoStore (t0.prog n) → NoStore (t.prog n)
  out : ∀ a, (∀ n, NoStore (t0.prog n) ∨ a < base n ∨ base n + size n ≤ a) → t.mem[a]? = t0.mem[a]?

variable {base size : ι → Nat} {t0 t t' : Threads ι ρ} {fin : ι → List Nat × ρ}

omit [DecidableEq ι] in
theorem Going.init (h : Apart base size t0 fin) : Going base size t0 fin t0 :=
  ⟨rfl, h.alone, fun _ h => h, fun _ _ => rfl⟩

theorem Going.step (h : Apart base size t0 fin) (g : Going base size t0 fin t) {n : ι} (s : Step base size n t t') :
    Going base size t0 fin t' := by
  cases s with
  | load i k c hp hi hc =>
    refine ⟨g.len, fun n' => ?_, fun n' hq => ?_, g.out⟩
    · by_cases e : n' = n
      · subst e
        have := g.alone n'
        rw [hp, run, region_get hi, hc] at this
        simpa using this
      · simpa [Function.update_of_ne e] using g.alone n'
    · by_cases e : n' = n
      · subst e
        have := g.quiet n' hq
        rw [hp] at this
        simpa using this c
      · simpa [Function.update_of_ne e] using g.quiet n' hq
  | store i c k hp hi hc =>
    have hns : ¬ NoStore (t0.prog n) := by
      intro hq
      have := g.quiet n hq
      rw [hp] at this
      exact this
    refine ⟨by simpa using g.len, fun n' => ?_, fun n' hq => ?_, fun a ha => ?_⟩
    · by_cases e : n' = n
      · subst e
        have := g.alone n'
        have hlen := region_length (mem := t.mem) (b := base n') (s := size n') (by rw [g.len]; exact h.inside n')
        rw [hp, run, hlen, if_pos hi] at this
        simpa [region_set_in hi] using this
      · have hd : base n + i < base n' ∨ base n' + size n' ≤ base n + i := by
          rcases h.apart n n' (Ne.symm e) with ⟨hq, _⟩ | hd | hd
          · exact (hns hq).elim
          · left; omega
          · right; omega
        simpa [Function.update_of_ne e, region_set_out hd] using g.alone n'
    · by_cases e : n' = n
      · subst e
        exact (hns hq).elim
      · simpa [Function.update_of_ne e] using g.quiet n' hq
    · have hne : base n + i ≠ a := by
        rcases ha n with hq | hd
        · exact (hns hq).elim
        · omega
      simpa [List.getElem?_set_ne hne] using g.out a ha

theorem Going.steps {k : Nat} (h : Apart base size t0 fin) (s : Steps base size t0 k t) : Going base size t0 fin t := by
  induction s with
  | refl => exact Going.init h
  | snoc n _ st ih => exact ih.step h st

/-- A call that has not finished can make its next access. -/
theorem Going.progress (h : Apart base size t0 fin) (g : Going base size t0 fin t) (n : ι) :
    t.prog n = .ret (fin n).2 ∧ region t.mem (base n) (size n) = (fin n).1 ∨
      ∃ t', Step base size n t t' := by
  have ha := g.alone n
  have hlen := region_length (mem := t.mem) (b := base n) (s := size n) (by rw [g.len]; exact h.inside n)
  cases hp : t.prog n with
  | ret a =>
    rw [hp, run, Except.ok.injEq] at ha
    left
    rw [← ha]
    exact ⟨rfl, rfl⟩
  | fail e => rw [hp] at ha; cases ha
  | load i k =>
    right
    rw [hp, run] at ha
    cases hc : (region t.mem (base n) (size n))[i]? with
    | none => rw [hc] at ha; cases ha
    | some c =>
      have hi : i < size n := by
        by_contra hi
        rw [List.getElem?_eq_none (by omega)] at hc
        cases hc
      exact ⟨_, Step.load i k c hp hi (by rw [← region_get hi]; exact hc)⟩
  | store i c k =>
    right
    rw [hp, run, hlen] at ha
    split_ifs at ha with hi
    have := h.inside n
    exact ⟨_, Step.store i c k hp hi (by rw [g.len]; omega)⟩

omit [DecidableEq ι] in
/-- There is never a data race. -/
theorem Going.noRace (h : Apart base size t0 fin) (g : Going base size t0 fin t) : ¬ Race base t := by
  have key : ∀ n a, ((t.prog n).WritesAt (base n) a ∨ (t.prog n).ReadsAt (base n) a) → base n ≤ a ∧ a < base n + size n := by
    intro n a hna
    have ha := g.alone n
    have hlen := region_length (mem := t.mem) (b := base n) (s := size n) (by rw [g.len]; exact h.inside n)
    rcases hna with ⟨i, c, k, hp, rfl⟩ | ⟨i, k, hp, rfl⟩
    · rw [hp, run, hlen] at ha
      split_ifs at ha with hi
      omega
    · rw [hp, run] at ha
      have hi : i < size n := by
        by_contra hi
        rw [List.getElem?_eq_none (by omega)] at ha
        cases ha
      omega
  rintro ⟨n, n', a, hne, hw, hrw⟩
  have h1 := key n a (Or.inl hw)
  have h2 := key n' a hrw
  rcases h.apart n n' hne with ⟨hq, _⟩ | hd | hd
  · obtain ⟨i, c, k, hp, _⟩ := hw
    have := g.quiet n hq
    rw [hp] at this
    exact this
  · omega
  · omega

/-- Every access brings the end nearer by one. -/
theorem Step.costs [Fintype ι] (h : Apart base size t0 fin) (g : Going base size t0 fin t) {n : ι} (s : Step base size n t t') :
    ∑ n, Prog.cost (t'.prog n) (region t'.mem (base n) (size n)) + 1 = ∑ n, Prog.cost (t.prog n) (region t.mem (base n) (size n)) := by
  classical
  have key : ∃ n, Prog.cost (t'.prog n) (region t'.mem (base n) (size n)) + 1 = Prog.cost (t.prog n) (region t.mem (base n) (size n)) ∧
      ∀ n', n' ≠ n → Prog.cost (t'.prog n') (region t'.mem (base n') (size n')) = Prog.cost (t.prog n') (region t.mem (base n') (size n')) := by
    cases s with
    | load i k c hp hi hc =>
      refine ⟨n, ?_, fun n' e => by simp [Function.update_of_ne e]⟩
      rw [hp, Prog.cost, region_get hi, hc]
      simp
    | store i c k hp hi hc =>
      have hns : ¬ NoStore (t0.prog n) := by
        intro hq
        have := g.quiet n hq
        rw [hp] at this
        exact this
      refine ⟨n, ?_, fun n' e => ?_⟩
      · rw [hp, Prog.cost]
        simp [region_set_in hi]
      · have hd : base n + i < base n' ∨ base n' + size n' ≤ base n + i := by
          rcases h.apart n n' (Ne.symm e) with ⟨hq, _⟩ | hd | hd
          · exact (hns hq).elim
          · left; omega
          · right; omega
        simp [Function.update_of_ne e, region_set_out hd]
  obtain ⟨n, e1, e2⟩ := key
  rw [← Finset.add_sum_erase _ _ (Finset.mem_univ n), ← Finset.add_sum_erase (a := n) _ (fun n => Prog.cost (t.prog n) _) (Finset.mem_univ n),
    Finset.sum_congr rfl (fun x hx => e2 x (Finset.ne_of_mem_erase hx)), ← e1]
  omega

theorem Steps.costs [Fintype ι] {k : Nat} (h : Apart base size t0 fin) (s : Steps base size t0 k t) :
    ∑ n, Prog.cost (t.prog n) (region t.mem (base n) (size n)) + k = ∑ n, Prog.cost (t0.prog n) (region t0.mem (base n) (size n)) := by
  induction s with
  | refl => rfl
  | snoc n s0 st ih =>
    rw [← ih, ← Step.costs h (Going.steps h s0) st]
    omega

end Floaxie
