import Verif.Model.Ftoa
import Mathlib.Tactic

/-!
# Memory the printing functions need

A call that succeeds on some buffer succeeds in the same way on every longer one
and leaves the extra characters alone.
-/

namespace Floaxie

/-- `b'` is as long as `b`, and `g` does to every extension of `b` what it does to `b`. -/
def Frm {α : Type} (g : List Nat → M (List Nat × α)) : Prop :=
  ∀ b b' a, g b = .ok (b', a) → b'.length = b.length ∧ ∀ ex, g (b ++ ex) = .ok (b' ++ ex, a)

def Frm0 (g : List Nat → M (List Nat)) : Prop :=
  ∀ b b', g b = .ok b' → b'.length = b.length ∧ ∀ ex, g (b ++ ex) = .ok (b' ++ ex)

theorem bindOk {α β : Type} {x : M α} {f : α → M β} {y : β} (h : (x >>= f) = .ok y) :
    ∃ a, x = .ok a ∧ f a = .ok y := by
  cases x with
  | error e => cases h
  | ok a => exact ⟨a, rfl, h⟩

theorem Frm.pure {α : Type} (a : α) : Frm (fun b => pure (b, a)) := by
  intro b b' a' h
  simp only [Pure.pure, Except.pure, Except.ok.injEq, Prod.mk.injEq] at h
  obtain ⟨rfl, rfl⟩ := h
  exact ⟨rfl, fun _ => rfl⟩

theorem Frm.error {α : Type} (e : UB) : Frm (α := α) (fun _ => .error e) := by
  intro b b' a' h; cases h

theorem Frm.bind {α β : Type} {g : List Nat → M (List Nat × α)} {h : List Nat × α → M (List Nat × β)}
    (hg : Frm g) (hh : ∀ a, Frm (fun b => h (b, a))) : Frm (fun b => g b >>= h) := by
  intro b b' a H
  obtain ⟨⟨b1, a1⟩, h1, h2⟩ := bindOk H
  obtain ⟨l1, e1⟩ := hg b b1 a1 h1
  obtain ⟨l2, e2⟩ := hh a1 b1 b' a h2
  refine ⟨l2.trans l1, fun ex => ?_⟩
  dsimp only
  rw [e1 ex]
  exact e2 ex

theorem Frm.bind0 {β : Type} {g : List Nat → M (List Nat)} {h : List Nat → M (List Nat × β)}
    (hg : Frm0 g) (hh : Frm h) : Frm (fun b => g b >>= h) := by
  intro b b' a H
  obtain ⟨b1, h1, h2⟩ := bindOk H
  obtain ⟨l1, e1⟩ := hg b b1 h1
  obtain ⟨l2, e2⟩ := hh b1 b' a h2
  refine ⟨l2.trans l1, fun ex => ?_⟩
  dsimp only
  rw [e1 ex]
  exact e2 ex

theorem Frm0.bind {g : List Nat → M (List Nat)} {h : List Nat → M (List Nat)}
    (hg : Frm0 g) (hh : Frm0 h) : Frm0 (fun b => g b >>= h) := by
  intro b b' H
  obtain ⟨b1, h1, h2⟩ := bindOk H
  obtain ⟨l1, e1⟩ := hg b b1 h1
  obtain ⟨l2, e2⟩ := hh b1 b' h2
  refine ⟨l2.trans l1, fun ex => ?_⟩
  dsimp only
  rw [e1 ex]
  exact e2 ex

theorem Frm.const {α β : Type} {x : M α} {h : α → List Nat → M (List Nat × β)}
    (hh : ∀ a, Frm (h a)) : Frm (fun b => x >>= fun a => h a b) := by
  intro b b' a H
  obtain ⟨a1, rfl, h2⟩ := bindOk H
  exact hh a1 b b' a h2

theorem Frm.ite {α : Type} {c : Prop} [Decidable c] {g h : List Nat → M (List Nat × α)}
    (hg : Frm g) (hh : Frm h) : Frm (fun b => if c then g b else h b) := by
  by_cases hc : c
  · simpa only [if_pos hc] using hg
  · simpa only [if_neg hc] using hh

theorem frm_wr (i c : Nat) : Frm0 (fun b => wr b i c) := by
  intro b b' h
  dsimp only at h
  unfold wr at h
  split_ifs at h with hi
  rw [Except.ok.injEq] at h
  subst h
  refine ⟨by simp, fun ex => ?_⟩
  dsimp only
  unfold wr
  rw [if_pos (by simp; omega), List.set_append_left _ _ hi]

theorem frm_memset (i c n : Nat) : Frm0 (fun b => memset b i c n) := by
  intro b b' h
  dsimp only at h
  unfold memset at h
  split_ifs at h with hi
  rw [Except.ok.injEq] at h
  subst h
  refine ⟨by simp; omega, fun ex => ?_⟩
  dsimp only
  unfold memset
  rw [if_pos (by simp; omega), List.take_append_of_le_length (by omega),
    List.drop_append_of_le_length (by omega)]
  simp

theorem frm_memmove (d s n : Nat) : Frm0 (fun b => memmove b d s n) := by
  intro b b' h
  dsimp only at h
  unfold memmove at h
  split_ifs at h with hi hj
  rw [Except.ok.injEq] at h
  subst h
  refine ⟨by simp; omega, fun ex => ?_⟩
  dsimp only
  unfold memmove
  rw [if_pos (by simp; omega), if_pos (by simp; omega), List.take_append_of_le_length (by omega),
    List.drop_append_of_le_length (by omega), List.drop_append_of_le_length (l₁ := b) (i := d + n) (by omega),
    List.take_append_of_le_length (by simp; omega)]
  simp

theorem frm_wrStr : ∀ (s : List Nat) (o : Nat), Frm0 (fun b => wrStr b o s)
  | [], o => by
    intro b b' h
    simp only [wrStr, Except.ok.injEq] at h
    subst h
    exact ⟨rfl, fun _ => rfl⟩
  | c :: cs, o => Frm0.bind (frm_wr o c) (frm_wrStr cs (o + 1))

theorem frm_genIntLoop (o : Nat) : ∀ (kappa div p1 len : Nat),
    Frm (fun b => genIntLoop o kappa div p1 b len)
  | 0, _, _, len => Frm.pure (len, 0)
  | kappa + 1, div, p1, len => by
    unfold genIntLoop
    refine Frm.ite ?_ (Frm.pure (len, kappa + 1))
    refine Frm.ite (Frm.error _) ?_
    exact Frm.bind0 (frm_wr _ _) (frm_genIntLoop o kappa (div / 10) (p1 % div) (len + 1))

theorem frm_genFracLoop (T : FloatType) (o s oneF : Nat) (some : Bool) :
    ∀ (fuel p2 delta len kappa : Nat),
    Frm (fun b => genFracLoop T o s oneF some fuel p2 delta b len kappa)
  | 0, _, _, _, _ => Frm.error _
  | fuel + 1, p2, delta, len, kappa => by
    unfold genFracLoop
    refine Frm.ite ?_ (Frm.pure (len, kappa))
    dsimp only
    refine Frm.bind (g := fun b => if (some || ((p2 * 10 % 2 ^ T.W) >>> s) % 256 != 0) = true then
      (wr b (o + len) ('0'.toNat + ((p2 * 10 % 2 ^ T.W) >>> s) % 256) >>= fun b => pure (b, len + 1))
      else pure (b, len)) ?_ ?_
    · exact Frm.ite (Frm.bind0 (frm_wr _ _) (Frm.pure _)) (Frm.pure _)
    · intro len'
      exact frm_genFracLoop T o s oneF some fuel _ _ len' _

theorem frm_digitGen (T : FloatType) (Mp Mm : DiyFp) (o : Nat) (K : Int) :
    Frm (fun b => digitGen T Mp Mm b o K) := by
  unfold digitGen
  refine Frm.const fun _ => Frm.const fun delta => Frm.const fun oneF => ?_
  dsimp only
  refine Frm.const fun _ => ?_
  refine Frm.ite ?_ ?_
  · refine Frm.bind (frm_genIntLoop _ _ _ _ _) ?_
    rintro ⟨len, kappa⟩
    refine Frm.ite (Frm.pure (len, K + kappa)) ?_
    dsimp only
    have aux : Frm (fun buf => genFracLoop T o (-Mp.e).toNat oneF (decide (len + kappa > 0)) (T.W + 1)
        (Mp.f &&& oneF - 1) delta.f buf (len + kappa) 0 >>= fun x =>
        (Pure.pure (x.1, x.2.1, K - (x.2.2 : Int)) : M (List Nat × Nat × Int))) := ?_
    · exact Frm.bind0 (frm_memset (o + len) '0'.toNat kappa) aux
    refine Frm.bind (frm_genFracLoop _ _ _ _ _ _ _ _ _ _) ?_
    rintro ⟨len, kappa⟩
    exact Frm.pure (len, K - kappa)
  · refine Frm.bind (frm_genFracLoop _ _ _ _ _ _ _ _ _ _) ?_
    rintro ⟨len, kappa⟩
    exact Frm.pure (len, K - kappa)

theorem frm_grisu2 (T : FloatType) (bits o : Nat) : Frm (fun b => grisu2 T bits b o) := by
  unfold grisu2 grisu2At
  refine Frm.const fun _ => ?_
  dsimp only
  exact Frm.const fun _ => frm_digitGen _ _ _ _ _

theorem frm_fillExponent (K o : Nat) : Frm (fun b => fillExponent K b o) := by
  unfold fillExponent
  refine Frm.bind0 (frm_wr _ _) ?_
  dsimp only
  split
  · refine Frm.bind0 (frm_wr _ _) (Frm.bind0 (frm_wr _ _) (Frm.bind0 (frm_wr _ _) ?_))
    exact Frm.pure _
  · exact Frm.error _

theorem frm_printScientific (o len : Nat) (dp : Int) : Frm (fun b => printScientific b o len dp) := by
  unfold printScientific
  dsimp only
  refine Frm.bind (g := fun b => if len > 1 then
      (memmove b (o + 2) (o + 1) (len - 1) >>= fun b => wr b (o + 1) '.'.toNat >>= fun b => pure (b, o + len))
      else pure (b, o)) ?_ ?_
  · exact Frm.ite (Frm.bind0 (frm_memmove _ _ _) (Frm.bind0 (frm_wr _ _) (Frm.pure _))) (Frm.pure _)
  · intro o'
    dsimp only
    refine Frm.bind0 (frm_wr _ _) (Frm.bind0 (frm_wr _ _) ?_)
    refine Frm.bind (frm_fillExponent _ _) ?_
    intro n
    dsimp only
    exact Frm.pure _

theorem frm_printDecimal (o len : Nat) (k : Int) : Frm (fun b => printDecimal b o len k) := by
  unfold printDecimal
  dsimp only
  exact Frm.bind0 (frm_memmove _ _ _) (Frm.bind0 (frm_memset _ _ _) (Frm.bind0 (frm_memset _ _ _)
    (Frm.bind0 (frm_wr _ _) (Frm.bind0 (frm_wr _ _) (Frm.pure _)))))

theorem frm_prettify (th o len : Nat) (k : Int) : Frm (fun b => prettify th b o len k) := by
  unfold prettify
  dsimp only
  split
  · exact frm_printDecimal _ _ _
  · exact frm_printScientific _ _ _

theorem frm_ftoa (T : FloatType) (bits : Nat) : Frm (fun b => ftoa T bits b) := by
  unfold ftoa
  refine Frm.ite (Frm.bind0 (frm_wrStr _ _) (Frm.pure _)) ?_
  refine Frm.ite (Frm.ite (Frm.bind0 (frm_wrStr _ _) (Frm.pure _)) (Frm.bind0 (frm_wrStr _ _) (Frm.pure _))) ?_
  refine Frm.ite (Frm.bind0 (frm_wrStr _ _) (Frm.pure _)) ?_
  refine Frm.bind0 (frm_wr _ _) ?_
  refine Frm.bind (frm_grisu2 _ _ _) ?_
  rintro ⟨len, K⟩
  refine Frm.bind (frm_prettify _ _ _ _) ?_
  intro n
  exact Frm.pure _

end Floaxie
