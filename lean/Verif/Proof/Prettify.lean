import Mathlib.Tactic.Ring
import Mathlib.Tactic.Linarith
import Mathlib.Tactic.NormNum
import Mathlib.Tactic.Positivity
import Mathlib.Tactic.IntervalCases
import Verif.Proof.Digits
import Verif.Proof.Word
import Verif.Model.Prettify

/-! # Formatting -/

namespace Floaxie

open Spec

theorem wr_app {A R : List Nat} {i c : Nat} (hi : i = A.length) (hR : 0 < R.length) :
    wr (A ++ R) i c = .ok (A ++ c :: R.drop 1) :=
  wr_append hi.symm (List.ne_nil_of_length_pos hR)

theorem memmove_right {A Md R : List Nat} {d dst src n : Nat} (hd : d ≤ R.length)
    (h1 : dst = A.length + d) (h2 : src = A.length) (h3 : n = Md.length) :
    memmove (A ++ (Md ++ R)) dst src n = .ok (A ++ ((Md ++ R).take d ++ (Md ++ R.drop d))) := by
  subst h1 h2 h3
  unfold memmove
  rw [if_pos (by simp), if_pos (by simp; omega)]
  have e1 : List.take (A.length + d) (A ++ (Md ++ R)) = A ++ (Md ++ R).take d := by
    rw [List.take_length_add_append]
  have e2 : List.take Md.length (List.drop A.length (A ++ (Md ++ R))) = Md := by simp
  have e3 : List.drop (A.length + d + Md.length) (A ++ (Md ++ R)) = R.drop d := by
    rw [show A.length + d + Md.length = A.length + (Md.length + d) by ring,
      List.drop_length_add_append, List.drop_length_add_append]
  rw [e1, e2, e3]
  simp

/-- Digits of a printed exponent: two, or three from 100 on. -/
def expDigits (n : Nat) : List (Fin 10) :=
  (if 100 ≤ n then [Fin.ofNat 10 (n / 100)] else []) ++
    [Fin.ofNat 10 (n / 10), Fin.ofNat 10 n]

theorem lut_ok : ∀ m : Fin 100, digitsLut[m.val * 2]? = some (48 + m.val / 10) ∧
    digitsLut[m.val * 2 + 1]? = some (48 + m.val % 10) := by decide

theorem fillExponent_ok (n : Nat) (hn : n < 1000) (A R : List Nat) (o : Nat) (ho : o = A.length)
    (hR : (expDigits n).length + 1 ≤ R.length) :
    fillExponent n (A ++ R) o =
      .ok (A ++ ((expDigits n).map digitChar ++ 0 :: R.drop ((expDigits n).length + 1)),
        (expDigits n).length) := by
  unfold fillExponent
  have hh : n / 100 % 256 = n / 100 := Nat.mod_eq_of_lt (by omega)
  have hlut := lut_ok ⟨n % 100, Nat.mod_lt _ (by norm_num)⟩
  simp only at hlut
  simp only [hh, hlut.1, hlut.2]
  have hd1 : digitChar (Fin.ofNat 10 (n / 10)) = 48 + n % 100 / 10 := by
    simp [digitChar]; omega
  have hd2 : digitChar (Fin.ofNat 10 n) = 48 + n % 100 % 10 := by
    simp [digitChar]
  have hd3 : digitChar (Fin.ofNat 10 (n / 100)) = 48 + n / 100 := by
    simp [digitChar]; omega
  have h48 : '0'.toNat = 48 := rfl
  by_cases h : 100 ≤ n
  · have hpos : n / 100 > 0 := by omega
    simp only [expDigits, h, if_true, List.length_append, List.length_cons, List.length_nil] at hR ⊢
    simp only [hpos, if_true]
    rw [wr_app ho (by omega), ok_bind]
    rw [show A ++ ('0'.toNat + n / 100) :: R.drop 1 = (A ++ ['0'.toNat + n / 100]) ++ R.drop 1 by simp]
    rw [wr_app (by simp; omega) (by simp; omega), ok_bind, List.drop_drop]
    rw [show (A ++ ['0'.toNat + n / 100]) ++ (48 + n % 100 / 10) :: R.drop (1 + 1) =
      (A ++ ['0'.toNat + n / 100, 48 + n % 100 / 10]) ++ R.drop (1 + 1) by simp]
    rw [wr_app (by simp; omega) (by simp; omega), ok_bind, List.drop_drop]
    rw [show (A ++ ['0'.toNat + n / 100, 48 + n % 100 / 10]) ++ (48 + n % 100 % 10) :: R.drop (1 + 1 + 1) =
      (A ++ ['0'.toNat + n / 100, 48 + n % 100 / 10, 48 + n % 100 % 10]) ++ R.drop (1 + 1 + 1) by simp]
    rw [wr_app (by simp; omega) (by simp; omega), ok_bind, List.drop_drop]
    simp only [List.map_append, List.map_cons, List.map_nil, hd1, hd2, hd3, h48, pure, Except.pure]
    simp
  · have hpos : ¬ (n / 100 > 0) := by omega
    simp only [expDigits, h, if_false, List.length_append, List.length_cons, List.length_nil] at hR ⊢
    simp only [hpos, if_false]
    rw [wr_app ho (by omega), ok_bind, add_zero, wr_app ho (by simp), ok_bind]
    simp only [List.drop_succ_cons, List.drop_zero]
    rw [show A ++ (48 + n % 100 / 10) :: R.drop 1 = (A ++ [48 + n % 100 / 10]) ++ R.drop 1 by simp]
    rw [wr_app (by simp; omega) (by simp; omega), ok_bind, List.drop_drop]
    rw [show (A ++ [48 + n % 100 / 10]) ++ (48 + n % 100 % 10) :: R.drop (1 + 1) =
      (A ++ [48 + n % 100 / 10, 48 + n % 100 % 10]) ++ R.drop (1 + 1) by simp]
    rw [wr_app (by simp; omega) (by simp; omega), ok_bind, List.drop_drop]
    simp only [List.map_append, List.map_cons, List.map_nil, hd1, hd2, pure, Except.pure]
    simp

/-- The numeral printed for digits `ds` and least-digit position `k`. -/
def fmtNumeral (neg : Bool) (ds : List (Fin 10)) (k : Int) : Numeral :=
  let sign := if neg then some true else none
  let dp : Int := ds.length + k
  if max dp (-k) ≤ 16 then
    if 0 ≤ k then { sign := sign, int := ds ++ List.replicate k.toNat 0, frac := none, exp := none }
    else if 0 < dp then
      { sign := sign, int := ds.take dp.toNat, frac := some (ds.drop dp.toNat), exp := none }
    else
      { sign := sign, int := [0], frac := some (List.replicate (-dp).toNat 0 ++ ds), exp := none }
  else
    { sign := sign, int := ds.take 1, frac := if 1 < ds.length then some (ds.drop 1) else none,
      exp := some { upper := false, sign := if dp - 1 < 0 then some true else none,
                    digits := expDigits (dp - 1).natAbs } }

/-- Text without the sign. -/
def fmtBody (ds : List (Fin 10)) (k : Int) : List Nat := (fmtNumeral false ds k).text

theorem fmt_text (neg : Bool) (ds : List (Fin 10)) (k : Int) :
    (fmtNumeral neg ds k).text = (if neg then ['-'.toNat] else []) ++ fmtBody ds k := by
  unfold fmtBody fmtNumeral Numeral.text
  cases neg
  · simp [signText]
  · dsimp only
    simp only [if_true, Bool.false_eq_true, if_false]
    split_ifs <;> simp [signText, Numeral.mantText, Numeral.expText]

theorem printDecimal_ok (ds : List (Fin 10)) (k : Int) (hne : ds ≠ []) (pre rest : List Nat)
    (hdec : max ((ds.length : Int) + k) (-k) ≤ 16)
    (hlen : (fmtBody ds k).length + 1 ≤ ds.length + rest.length) :
    printDecimal (pre ++ (ds.map digitChar ++ rest)) pre.length ds.length k =
      .ok (pre ++ (fmtBody ds k ++ 0 :: (ds.map digitChar ++ rest).drop ((fmtBody ds k).length + 1)),
        (fmtBody ds k).length) := by
  have hl : 0 < ds.length := List.length_pos_iff.mpr hne
  unfold printDecimal
  by_cases hk : 0 ≤ k
  · -- trailing zeros
    obtain ⟨n, rfl⟩ : ∃ n : Nat, k = n := ⟨k.toNat, by omega⟩
    have hbody : fmtBody ds n = ds.map digitChar ++ List.replicate n '0'.toNat := by
      unfold fmtBody fmtNumeral Numeral.text
      dsimp only
      rw [if_pos hdec, if_pos hk]
      simp [signText, Numeral.mantText, Numeral.expText, digitChar]
    rw [hbody] at hlen ⊢
    simp only [List.length_append, List.length_map, List.length_replicate] at hlen ⊢
    have hdp : ((ds.length : Int) + n > 0) := by omega
    have hk' : ¬ ((n : Int) < 0) := by omega
    simp only [hdp, hk', if_true, if_false, add_zero, Nat.sub_self]
    have e1 : positivePart ((ds.length : Int) + n) = ds.length + n := by unfold positivePart; omega
    have e2 : positivePart (n : Int) = n := by unfold positivePart; omega
    have e3 : positivePart ((ds.length : Int) - ((ds.length + n : Nat) : Int)) = 0 := by
      unfold positivePart; omega
    have e4 : ((ds.length : Int) + n).toNat = ds.length + n := by omega
    simp only [e1, e2, e3, e4]
    have m0 : memmove (pre ++ (ds.map digitChar ++ rest)) (pre.length + (ds.length + n))
        (pre.length + (ds.length + n)) 0 = .ok (pre ++ (ds.map digitChar ++ rest)) := by
      unfold memmove
      rw [if_pos (by simp; omega), if_pos (by simp; omega)]
      rw [List.take_zero, List.append_nil, add_zero, List.take_append_drop]
    have m1 : memset (pre ++ (ds.map digitChar ++ rest)) pre.length '0'.toNat 0 =
        .ok (pre ++ (ds.map digitChar ++ rest)) := by
      rw [memset_append rfl (by simp)]; simp
    rw [m0, ok_bind, m1, ok_bind, ← List.append_assoc, memset_append (by simp) (by omega), ok_bind]
    rw [wr_app (by simp; try omega) (by simp; omega), ok_bind, wr_app (by simp; try omega) (by simp), ok_bind]
    simp only [pure, Except.pure, Except.ok.injEq, Prod.mk.injEq, and_true]
    rw [show ds.length + n + 1 = (ds.map digitChar).length + (n + 1) by simp; omega,
      List.drop_length_add_append]
    simp
  · by_cases hdp : 0 < (ds.length : Int) + k
    · -- dot inside
      obtain ⟨d, hd⟩ : ∃ d : Nat, (d : Int) = ds.length + k := ⟨((ds.length : Int) + k).toNat, by omega⟩
      have hbody : fmtBody ds k = (ds.take d).map digitChar ++ '.'.toNat :: (ds.drop d).map digitChar := by
        unfold fmtBody fmtNumeral Numeral.text
        dsimp only
        rw [if_pos hdec, if_neg hk, if_pos hdp]
        rw [show ((ds.length : Int) + k).toNat = d by omega]
        simp [signText, Numeral.mantText, Numeral.expText]
      have hdl : d < ds.length := by omega
      rw [hbody] at hlen ⊢
      simp only [List.length_append, List.length_map, List.length_cons, List.length_take,
        List.length_drop] at hlen ⊢
      have hk' : k < 0 := by omega
      have hdp' : (ds.length : Int) + k > 0 := hdp
      simp only [hdp', hk', if_true]
      have e1 : positivePart ((ds.length : Int) + k) = d := by unfold positivePart; omega
      have e2 : positivePart k = 0 := by unfold positivePart; omega
      have e3 : positivePart ((ds.length : Int) - (d : Int)) = ds.length - d := by
        unfold positivePart; omega
      have e4 : ((ds.length : Int) + k).toNat = d := by omega
      simp only [e1, e2, e3, e4]
      have hsplit : pre ++ (ds.map digitChar ++ rest) =
          (pre ++ (ds.take d).map digitChar) ++ ((ds.drop d).map digitChar ++ rest) := by
        conv_lhs => rw [← List.take_append_drop d ds]
        rw [List.map_append, List.append_assoc, List.append_assoc]
      rw [hsplit, memmove_right (d := 1) (by omega) (by simp; omega) (by simp; omega) (by simp), ok_bind]
      obtain ⟨x, xs, hx⟩ : ∃ x xs, (ds.drop d).map digitChar ++ rest = x :: xs := by
        apply List.exists_cons_of_ne_nil; apply List.ne_nil_of_length_pos; simp; omega
      have ht : List.take 1 ((ds.drop d).map digitChar ++ rest) = [x] := by rw [hx]; rfl
      rw [ht]
      rw [List.append_assoc, memset_append rfl (by simp), ok_bind]
      simp only [List.replicate_zero, List.append_nil, List.drop_zero]
      have m1 : ∀ B : List Nat, ds.length ≤ B.length → memset (pre ++ B) (pre.length + ds.length) '0'.toNat 0 =
          .ok (pre ++ B) := by
        intro B hB
        unfold memset
        rw [if_pos (by simp; omega)]
        rw [List.replicate_zero, List.append_nil, add_zero, List.take_append_drop]
      rw [m1 _ (by simp; omega), ok_bind, ← List.append_assoc, ← List.append_assoc]
      rw [List.append_assoc (pre ++ _) [x]]
      rw [wr_app (by simp; omega) (by simp), ok_bind]
      simp only [List.singleton_append, List.drop_succ_cons, List.drop_zero]
      rw [show pre ++ List.map digitChar (List.take d ds) ++ '.'.toNat ::
          (List.map digitChar (List.drop d ds) ++ List.drop 1 rest) =
          (pre ++ List.map digitChar (List.take d ds) ++ '.'.toNat ::
          List.map digitChar (List.drop d ds)) ++ List.drop 1 rest by simp]
      rw [wr_app (by simp; omega) (by simp; omega), ok_bind]
      simp only [pure, Except.pure, Except.ok.injEq, Prod.mk.injEq]
      constructor
      · have h1 : min d ds.length + (ds.length - d + 1) + 1 = ds.length + 2 := by omega
        rw [h1, List.drop_append, List.drop_eq_nil_of_le (as := ds.map digitChar) (by simp)]
        simp
      · omega
    · -- leading zeros
      obtain ⟨z, hz⟩ : ∃ z : Nat, (z : Int) = -((ds.length : Int) + k) :=
        ⟨(-((ds.length : Int) + k)).toNat, by omega⟩
      have hbody : fmtBody ds k = '0'.toNat :: '.'.toNat :: (List.replicate z '0'.toNat ++ ds.map digitChar) := by
        unfold fmtBody fmtNumeral Numeral.text
        dsimp only
        rw [if_pos hdec, if_neg hk, if_neg hdp]
        rw [show (-((ds.length : Int) + k)).toNat = z by omega]
        simp [signText, Numeral.mantText, Numeral.expText, digitChar]
      rw [hbody] at hlen ⊢
      simp only [List.length_append, List.length_map, List.length_cons, List.length_replicate] at hlen ⊢
      have hdp' : ¬ ((ds.length : Int) + k > 0) := hdp
      simp only [hdp', if_false]
      have e1 : positivePart ((ds.length : Int) + k) = 0 := by unfold positivePart; omega
      have e2 : positivePart k = 0 := by unfold positivePart; omega
      have e3 : positivePart ((ds.length : Int) - ((0 : Nat) : Int)) = ds.length := by
        unfold positivePart; omega
      have e4 : (2 - ((ds.length : Int) + k)).toNat = z + 2 := by omega
      simp only [e1, e2, e3, e4, add_zero, Nat.sub_zero]
      rw [memmove_right (d := z + 2) (by omega) rfl rfl (by simp), ok_bind]
      rw [memset_append rfl (by simp; omega), ok_bind]
      rw [List.drop_append_of_le_length (by simp; omega), List.drop_eq_nil_of_le (by simp)]
      have m1 : ∀ B : List Nat, ds.length ≤ B.length → memset (pre ++ B) (pre.length + ds.length) '0'.toNat 0 =
          .ok (pre ++ B) := by
        intro B hB
        unfold memset
        rw [if_pos (by simp; omega)]
        rw [List.replicate_zero, List.append_nil, add_zero, List.take_append_drop]
      rw [List.append_assoc, m1 _ (by simp; omega), ok_bind]
      rw [show pre ++ (List.replicate (z + 2) '0'.toNat ++ ([] ++ (List.map digitChar ds ++ List.drop (z + 2) rest)))
        = (pre ++ ['0'.toNat]) ++ ('0'.toNat :: (List.replicate z '0'.toNat ++ (List.map digitChar ds ++ List.drop (z + 2) rest)))
        by simp [List.replicate_succ]]
      rw [wr_app (by simp) (by simp), ok_bind]
      simp only [List.drop_succ_cons, List.drop_zero]
      rw [show (pre ++ ['0'.toNat]) ++ '.'.toNat :: (List.replicate z '0'.toNat ++ (List.map digitChar ds ++ List.drop (z + 2) rest))
        = (pre ++ '0'.toNat :: '.'.toNat :: (List.replicate z '0'.toNat ++ List.map digitChar ds)) ++ List.drop (z + 2) rest
        by simp]
      rw [wr_app (by simp; omega) (by simp; omega), ok_bind]
      simp only [pure, Except.pure, Except.ok.injEq, Prod.mk.injEq]
      constructor
      · rw [List.drop_append, List.drop_eq_nil_of_le (as := ds.map digitChar) (by simp; omega)]
        rw [show z + ds.length + 1 + 1 + 1 - (ds.map digitChar).length = z + 3 by simp; omega]
        simp
      · omega

theorem printScientific_ok (ds : List (Fin 10)) (k : Int) (hne : ds ≠ []) (pre rest : List Nat)
    (hsci : ¬ max ((ds.length : Int) + k) (-k) ≤ 16) (hK : ((ds.length : Int) + k - 1).natAbs < 1000)
    (hlen : (fmtBody ds k).length + 1 ≤ ds.length + rest.length) :
    printScientific (pre ++ (ds.map digitChar ++ rest)) pre.length ds.length (ds.length + k) =
      .ok (pre ++ (fmtBody ds k ++ 0 :: (ds.map digitChar ++ rest).drop ((fmtBody ds k).length + 1)),
        (fmtBody ds k).length) := by
  obtain ⟨c, ct, rfl⟩ := List.exists_cons_of_ne_nil hne
  set K : Int := (((c :: ct).length : Nat) : Int) + k - 1 with hKdef
  set mant : List Nat := digitChar c :: (if ct = [] then [] else '.'.toNat :: ct.map digitChar) with hmant
  set sgn : List Nat := if K < 0 then ['-'.toNat] else [] with hsgn
  have hbody : fmtBody (c :: ct) k =
      mant ++ 'e'.toNat :: (sgn ++ (expDigits K.natAbs).map digitChar) := by
    unfold fmtBody fmtNumeral Numeral.text
    dsimp only
    rw [if_neg hsci]
    have h1 : (1 < (c :: ct).length) = (ct ≠ []) := by
      apply propext; rw [List.length_cons, ← List.length_pos_iff]; omega
    simp only [← hKdef, h1]
    by_cases hct : ct = []
    · subst hct
      by_cases hKs : K < 0 <;>
        simp [signText, Numeral.mantText, Numeral.expText, ExpPart.text, hmant, hsgn, hKs]
    · by_cases hKs : K < 0 <;>
        simp [signText, Numeral.mantText, Numeral.expText, ExpPart.text, hmant, hsgn, hKs, hct]
  rw [hbody] at hlen ⊢
  -- common tail
  have tail : ∀ (A R : List Nat) (o : Nat), o + 1 = A.length →
      2 + sgn.length + (expDigits K.natAbs).length ≤ R.length →
      (do
        let buf ← wr (A ++ R) (o + 1) 'e'.toNat
        let buf ← wr buf (o + 2) '-'.toNat
        let (buf, n) ← fillExponent K.natAbs buf (o + (if K < 0 then 1 else 0) + 2)
        pure (buf, (c :: ct).length + (if (c :: ct).length > 1 then 1 else 0) + 1 +
          (if K < 0 then 1 else 0) + n) : M (List Nat × Nat)) =
      .ok (A ++ ('e'.toNat :: (sgn ++ ((expDigits K.natAbs).map digitChar ++
          0 :: R.drop (2 + sgn.length + (expDigits K.natAbs).length)))),
        (c :: ct).length + (if (c :: ct).length > 1 then 1 else 0) + 1 + sgn.length +
          (expDigits K.natAbs).length) := by
    intro A R o ho hR
    have hel : 2 ≤ (expDigits K.natAbs).length := by unfold expDigits; simp
    rw [wr_app ho (by omega), ok_bind]
    rw [show A ++ 'e'.toNat :: R.drop 1 = (A ++ ['e'.toNat]) ++ R.drop 1 by simp]
    rw [wr_app (by simp; omega) (by simp; omega), ok_bind, List.drop_drop]
    by_cases hKs : K < 0
    · simp only [hsgn, hKs, if_true] at hR ⊢
      simp only [List.length_singleton] at hR ⊢
      rw [show (A ++ ['e'.toNat]) ++ '-'.toNat :: R.drop (1 + 1) = (A ++ ['e'.toNat, '-'.toNat]) ++ R.drop (1 + 1) by simp]
      rw [fillExponent_ok _ hK _ _ _ (by simp; omega) (by simp; omega), ok_bind]
      simp only [pure, Except.pure, List.drop_drop]
      rw [show 1 + 1 + ((expDigits K.natAbs).length + 1) = 2 + 1 + (expDigits K.natAbs).length by ring]
      simp
    · simp only [hsgn, hKs, if_false] at hR ⊢
      simp only [List.length_nil, add_zero] at hR ⊢
      rw [fillExponent_ok _ hK _ _ _ (by simp; omega) (by simp; omega), ok_bind]
      simp only [pure, Except.pure, List.drop_drop]
      have h1 : ('-'.toNat :: R.drop (1 + 1)).drop ((expDigits K.natAbs).length + 1) =
        R.drop (2 + (expDigits K.natAbs).length) := by
        rw [List.drop_succ_cons, List.drop_drop]
      rw [h1]; simp
  have hlen2 : (mant ++ 'e'.toNat :: (sgn ++ (expDigits K.natAbs).map digitChar)).length =
      mant.length + 1 + sgn.length + (expDigits K.natAbs).length := by simp; ring
  rw [hlen2] at hlen ⊢
  unfold printScientific
  dsimp only
  rw [← hKdef]
  by_cases hct : ct = []
  · subst hct
    have hml : mant.length = 1 := by rw [hmant]; simp
    rw [if_neg (by simp), pure_bind']
    simp only [List.map_cons, List.map_nil]
    rw [show pre ++ ([digitChar c] ++ rest) = (pre ++ [digitChar c]) ++ rest by simp]
    rw [tail _ _ _ (by simp) (by simp at hlen; omega)]
    simp only [Except.ok.injEq, Prod.mk.injEq]
    constructor
    · simp only [hmant, if_true, List.append_assoc, List.singleton_append, List.cons_append,
        List.nil_append, List.length_singleton]
      rw [show 1 + 1 + sgn.length + (expDigits K.natAbs).length + 1 =
        (2 + sgn.length + (expDigits K.natAbs).length) + 1 by ring, List.drop_succ_cons]
    · rw [hml]; simp
  · have hctl : 0 < ct.length := List.length_pos_iff.mpr hct
    have hml : mant.length = ct.length + 2 := by rw [hmant]; simp [hct]
    rw [if_pos (by simp; omega)]
    rw [show pre ++ (List.map digitChar (c :: ct) ++ rest) =
      (pre ++ [digitChar c]) ++ (ct.map digitChar ++ rest) by simp]
    rw [memmove_right (d := 1) (by simp at hlen; omega) (by simp) (by simp) (by simp), ok_bind]
    obtain ⟨x, xs, hx⟩ : ∃ x xs, ct.map digitChar ++ rest = x :: xs := by
      apply List.exists_cons_of_ne_nil; apply List.ne_nil_of_length_pos; simp; omega
    have ht : List.take 1 (ct.map digitChar ++ rest) = [x] := by rw [hx]; rfl
    rw [ht, wr_app (by simp) (by simp), ok_bind, pure_bind']
    simp only [List.singleton_append, List.drop_succ_cons, List.drop_zero]
    rw [show pre ++ [digitChar c] ++ '.'.toNat :: (List.map digitChar ct ++ List.drop 1 rest) =
      (pre ++ digitChar c :: '.'.toNat :: List.map digitChar ct) ++ List.drop 1 rest by simp]
    rw [tail _ _ _ (by simp; omega) (by simp at hlen ⊢; omega)]
    simp only [Except.ok.injEq, Prod.mk.injEq]
    constructor
    · rw [hml, List.drop_drop, show ct.length + 2 + 1 + sgn.length + (expDigits K.natAbs).length + 1 =
        ((c :: ct).map digitChar).length + (1 + (2 + sgn.length + (expDigits K.natAbs).length)) by
        simp; omega, List.drop_length_add_append]
      simp [hmant, hct]
    · rw [hml]; simp [hctl]

/-- `prettify` writes the text of the numeral, a NUL, and nothing else. -/
theorem prettify_ok (ds : List (Fin 10)) (k : Int) (hne : ds ≠ []) (pre rest : List Nat)
    (hK : ((ds.length : Int) + k - 1).natAbs < 1000) (hk : k.natAbs < 1000)
    (hlen : (fmtBody ds k).length + 1 ≤ ds.length + rest.length) :
    prettify 16 (pre ++ (ds.map digitChar ++ rest)) pre.length ds.length k =
      .ok (pre ++ (fmtBody ds k ++ 0 :: (ds.map digitChar ++ rest).drop ((fmtBody ds k).length + 1)),
        (fmtBody ds k).length) := by
  have hl : 0 < ds.length := List.length_pos_iff.mpr hne
  unfold prettify chooseFormat
  dsimp only
  have hmod : (max ((ds.length : Int) + k) (-k) % 2 ^ 64).toNat = (max ((ds.length : Int) + k) (-k)).toNat := by
    rw [Int.emod_eq_of_lt (by omega) (by omega)]
  rw [hmod]
  by_cases h : max ((ds.length : Int) + k) (-k) ≤ 16
  · rw [if_neg (by omega)]
    exact printDecimal_ok ds k hne pre rest h hlen
  · rw [if_pos (by omega)]
    exact printScientific_ok ds k hne pre rest h hK hlen

end Floaxie
