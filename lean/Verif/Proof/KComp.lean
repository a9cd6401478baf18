import Verif.Model.Grisu
import Verif.Proof.Tables

/-! # The scaling exponent of Grisu -/

namespace Floaxie

open FloatType

theorem kComp_double (α e : Int) : FpEval.kComp α e = kCompExp α e := rfl

/-- Least and greatest exponent of a normalized upper boundary. -/
def bndLo : FloatType → Int
  | float => -180
  | double => -1137
def bndHi : FloatType → Int
  | float => 96
  | double => 960
/-- Range of the decimal scaling exponent. -/
def mkLo : FloatType → Int
  | float => -34
  | double => -299
def mkHi : FloatType → Int
  | float => 49
  | double => 332

/-- Bound on the number of fractional digits generated, by boundary exponent. -/
def mB : FloatType → Int → Nat
  | float, e => if e ≥ -160 then 4 else if e ≥ -169 then 3 else 0
  | double, _ => 8

/-- Check for the exponent `lo + i`. -/
def kcCheck (T : FloatType) (i : Nat) : Bool :=
  let e := bndLo T + i
  let mk := kCompExp T.alpha e
  match T.powE[((T.pow0Offset : Int) + mk).toNat]? with
  | some ec =>
    decide (mkLo T ≤ mk) && decide (mk ≤ mkHi T) && decide (mk + mB T e ≤ T.powHi) &&
      decide (T.alpha ≤ e + ec + T.W) && decide (e + ec + T.W ≤ T.gamma)
  | none => false

theorem kcCheck_float : (List.range 277).all (kcCheck .float) = true := by decide +kernel
theorem kcCheck_double : (List.range 2098).all (kcCheck .double) = true := by decide +kernel

theorem kcCheck_all (T : FloatType) (i : Nat) (h : (i : Int) ≤ bndHi T - bndLo T) :
    kcCheck T i = true := by
  cases T
  · exact List.all_eq_true.mp kcCheck_float i
      (List.mem_range.mpr (by simp only [bndHi, bndLo] at h; omega))
  · exact List.all_eq_true.mp kcCheck_double i
      (List.mem_range.mpr (by simp only [bndHi, bndLo] at h; omega))

theorem kComp_ok (T : FloatType) (e : Int) (h1 : bndLo T ≤ e) (h2 : e ≤ bndHi T) :
    mkLo T ≤ kCompExp T.alpha e ∧ kCompExp T.alpha e ≤ mkHi T ∧
    kCompExp T.alpha e + mB T e ≤ T.powHi ∧
    ∀ c, cachedPower T (kCompExp T.alpha e) = .ok c →
      T.alpha ≤ e + c.e + T.W ∧ e + c.e + T.W ≤ T.gamma := by
  have hc := kcCheck_all T (e - bndLo T).toNat (by omega)
  have he : bndLo T + ((e - bndLo T).toNat : Int) = e := by omega
  unfold kcCheck at hc
  simp only [he] at hc
  cases hE : T.powE[((T.pow0Offset : Int) + kCompExp T.alpha e).toNat]? with
  | none => rw [hE] at hc; simp at hc
  | some ec =>
    rw [hE] at hc
    simp only [Bool.and_eq_true, decide_eq_true_eq] at hc
    obtain ⟨⟨⟨⟨c1, c2⟩, c5⟩, c3⟩, c4⟩ := hc
    refine ⟨c1, c2, c5, ?_⟩
    intro c hcp
    unfold cachedPower at hcp
    have hoff : -(T.pow0Offset : Int) ≤ kCompExp T.alpha e := by
      revert c1; cases T <;> simp only [mkLo, FloatType.pow0Offset] <;> omega
    rw [assertM_true (by simpa using hoff), ok_bind] at hcp
    simp only [hE] at hcp
    split at hcp
    · rename_i h3 h4
      simp only [Option.some.injEq] at h4
      simp only [pure, Except.pure, Except.ok.injEq] at hcp
      rw [← hcp, ← h4]; exact ⟨c3, c4⟩
    · simp at hcp

end Floaxie
