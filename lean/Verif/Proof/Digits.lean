import Mathlib.Tactic.Ring
import Mathlib.Tactic.Linarith
import Mathlib.Tactic.NormNum
import Mathlib.Tactic.Positivity
import Verif.Spec.Numeral
import Verif.Model.Base

/-! # Digit strings and buffer writes -/

namespace Floaxie

open Spec

theorem digitsVal_foldl (ds : List (Fin 10)) (a : Nat) :
    ds.foldl (fun a d => a * 10 + d.val) a = a * 10 ^ ds.length + digitsVal ds := by
  unfold digitsVal
  induction ds generalizing a with
  | nil => simp
  | cons d ds ih =>
    simp only [List.foldl_cons, List.length_cons]
    rw [ih (a * 10 + d.val), ih (0 * 10 + d.val)]
    ring

@[simp] theorem digitsVal_nil : digitsVal [] = 0 := rfl

theorem digitsVal_cons (d : Fin 10) (ds : List (Fin 10)) :
    digitsVal (d :: ds) = d.val * 10 ^ ds.length + digitsVal ds := by
  have := digitsVal_foldl ds (0 * 10 + d.val)
  rw [show digitsVal (d :: ds) = ds.foldl (fun a d => a * 10 + d.val) (0 * 10 + d.val) from rfl, this]
  ring

theorem digitsVal_append (a b : List (Fin 10)) :
    digitsVal (a ++ b) = digitsVal a * 10 ^ b.length + digitsVal b := by
  induction a with
  | nil => simp
  | cons d ds ih =>
    rw [List.cons_append, digitsVal_cons, digitsVal_cons, ih, List.length_append, pow_add]
    ring

theorem digitsVal_replicate_zero (n : Nat) : digitsVal (List.replicate n 0) = 0 := by
  induction n with
  | zero => rfl
  | succ n ih => rw [List.replicate_succ, digitsVal_cons, ih]; simp

theorem digitsVal_lt (ds : List (Fin 10)) : digitsVal ds < 10 ^ ds.length := by
  induction ds with
  | nil => simp
  | cons d ds ih =>
    rw [digitsVal_cons, List.length_cons, pow_succ]
    have : d.val ≤ 9 := by omega
    have := Nat.mul_le_mul_right (10 ^ ds.length) this
    omega

theorem wr_append {pre rest : List Nat} {i c : Nat} (hi : pre.length = i) (hr : rest ≠ []) :
    wr (pre ++ rest) i c = .ok (pre ++ c :: rest.drop 1) := by
  subst hi
  obtain ⟨x, xs, rfl⟩ := List.exists_cons_of_ne_nil hr
  unfold wr
  rw [if_pos (by simp)]
  simp

theorem memset_append {pre rest : List Nat} {i c n : Nat} (hi : pre.length = i)
    (hr : n ≤ rest.length) :
    memset (pre ++ rest) i c n = .ok (pre ++ List.replicate n c ++ rest.drop n) := by
  subst hi
  unfold memset
  rw [if_pos (by simp; omega)]
  simp [List.drop_append]

end Floaxie
