import Verif.Prop.Atof
import Verif.Prop.Ftoa

/-!
# Conformance of the model with the project's own tests

These are tests of the *model*, not proofs of properties: every expectation of
`/repo/test/*.cpp` that is a fixed input and output is evaluated on the model (by
the kernel).  They guard the reading of the C++ into `Model/*`.
Random tests (`fullcircle.cpp`, `fullcirclew.cpp`, `roundtrip.cpp`) are covered by
the theorems C01, C22 and C49.
-/

namespace Floaxie
open Spec FloatType

/-- test/atof_test.cpp:15-49, `test_chain`. -/
def testChain : List (String × Nat) := [
("0", 0x0),("0.0", 0x0),("0.", 0x0),("18014398509481993", 0x4350000000000002),("0.9199", 0x3fed6fd21ff2e48f),("1.89", 0x3ffe3d70a3d70a3d),("3.50582559e-71", 0x314ef8a6590bf591),
("0.500000000000000166533453693773481063544750213623046875", 0x3fe0000000000002),("3.14159265358979323846264", 0x400921fb54442d18),("7.8459735791271921e+65", 0x4d9dcd0089c1314e),
("3.571e266", 0x77462644c61d41aa),("3.08984926168550152811e-32", 0x39640de48676653b),("1.2345689012e37", 0x47a29362ed1b4eb0),("3.518437208883201171875e13", 0x42c0000000000002),
("62.5364939768271845828", 0x404f44abd5aa7ca4),("8.10109172351e-10", 0x3e0bd5cbaef0fd0c),("1.50000000000000011102230246251565404236316680908203125", 0x3ff8000000000000),
("9007199254740991.4999999999999999999999999999999995", 0x433fffffffffffff),("9214843084008499", 0x43405e6cec57761a),("30078505129381147446200", 0x44997a3c7271b021),("1777820000000000000001", 0x4458180d5bad2e3e),
("0.500000000000000166547006220929549868969843373633921146392822265625", 0x3fe0000000000002),("0.50000000000000016656055874808561867439493653364479541778564453125", 0x3fe0000000000002),
("0.3932922657273", 0x3fd92bb352c4623a),("7.65801751e-323", 0x000000000000000f),("675698e-312", 0x005e5e10a3ab09aa),("0.0000763761", 0x3f140583682300c0),("7.41098468e-324", 0x0000000000000001),
("6.95255e118", 0x589b92112776983c),("3.68715e-227", 0x10ebf37577860131),("4.30583e92", 0x532a6c122de8c02f),("3.01442e49", 0x4a34a020ad69249c),("1.6564e-174", 0x1bda382a65a69de1)]

/-- test/atof_test.cpp:66-92: value and status, given that the fallback (asked for
20 of the 33 strings) reads the string correctly. -/
example : ∀ p ∈ testChain,
    (atof .double (fun _ _ e => ⟨p.2, p.1.length, e⟩) 0 (chars p.1 ++ [0]) 0).toOption.map
      (fun r => (r.value, r.status, r.strEnd)) = some (p.2, .success, p.1.length) := by decide +kernel

/-- The strings of `test_chain` converted without the fallback. -/
example : (testChain.filter fun p =>
    ((atof .double (fun _ _ e => ⟨p.2, p.1.length, e⟩) 0 (chars p.1 ++ [0]) 0).toOption.map (·.fellBack)) = some false).map Prod.fst =
    ["0", "0.0", "0.", "18014398509481993", "0.9199", "1.89", "3.50582559e-71", "3.14159265358979323846264",
     "1.2345689012e37", "7.65801751e-323", "675698e-312", "0.0000763761", "7.41098468e-324"] := by decide +kernel

/-- test/atof_test.cpp:95-98: a string that is no number. -/
example (fb : Fallback) : atof .double fb 0 (chars "aazz" ++ [0]) 0 = .ok ⟨0, .success, 0, 0, false⟩ := rfl

/-- test/parse_digits.cpp:12-40. -/
example : parseDigits .double (chars "12345" ++ [0]) 0 = .ok ⟨12345, 0, 5, 0, .no, true⟩ ∧
    parseDigits .double (chars "-12345" ++ [0]) 0 = .ok ⟨12345, 0, 6, 0, .no, false⟩ := by decide +kernel

/-- test/parse_digits.cpp:42-88. -/
example : parseDigits .double (chars "0000123400.0000000000" ++ [0]) 0 = .ok ⟨1234, 2, 21, 0, .no, true⟩ ∧
    parseDigits .double (chars "0000123400.05678900000" ++ [0]) 0 = .ok ⟨123400056789, -6, 22, 0, .no, true⟩ ∧
    parseDigits .double (chars "-0.000123400000" ++ [0]) 0 = .ok ⟨1234, -7, 15, 0, .no, false⟩ ∧
    parseDigits .double (chars "123.00000" ++ [0]) 0 = .ok ⟨123, 0, 9, 0, .no, true⟩ := by decide +kernel

/-- test/parse_digits.cpp:90-120: mantissa and exponent of "00001234.000567e000012" and
"-1234.000567e-000012". -/
example : ∃ w, DiyFp.normalize 64 ⟨1234000567, 0⟩ = .ok w ∧
    parseMantissa .double (chars "00001234.000567e000012" ++ [0]) 0 = .ok ⟨w, -6, 15, .no, true⟩ ∧
    parseExponent (chars "00001234.000567e000012" ++ [0]) 15 = .ok ⟨12, 22⟩ ∧
    parseMantissa .double (chars "-1234.000567e-000012" ++ [0]) 0 = .ok ⟨w, -6, 12, .no, false⟩ ∧
    parseExponent (chars "-1234.000567e-000012" ++ [0]) 12 = .ok ⟨-12, 20⟩ :=
  ⟨⟨1234000567 * 2 ^ 33, -33⟩, by decide +kernel⟩

/-- test/round_up.cpp:10-82. -/
example : roundUp 8 0x0b 3 = .ok ⟨false, true⟩ ∧ roundUp 8 0 3 = .ok ⟨false, true⟩ ∧
    roundUp 8 0x04 3 = .ok ⟨false, false⟩ ∧ roundUp 8 0x10 3 = .ok ⟨false, true⟩ ∧
    roundUp 8 0x14 3 = .ok ⟨false, false⟩ ∧ roundUp 8 0x05 3 = .ok ⟨true, true⟩ ∧
    roundUp 8 0x06 3 = .ok ⟨true, true⟩ ∧ roundUp 8 0x07 3 = .ok ⟨true, true⟩ ∧
    roundUp 8 0x0c 3 = .ok ⟨true, false⟩ := by decide +kernel

/-- test/overflow.cpp:17-26. -/
example (fb : Fallback) : atof .double fb 0 (chars "5e577" ++ [0]) 0 = .ok ⟨posInf .double, .overflow, 5, 0, false⟩ := rfl

/-- test/underflow.cpp:15-40. -/
example :
    atof .float (fun _ _ e => ⟨0, 0, e⟩) 0 (chars "5e-577" ++ [0]) 0 = .ok ⟨0, .underflow, 6, 0, false⟩ ∧
    atof .float (fun _ _ e => ⟨0, 0, e⟩) 0 (chars "0.00000000000000000000000000000000000000000000000000001" ++ [0]) 0 = .ok ⟨0, .underflow, 55, 0, false⟩ ∧
    atof .float (fun _ _ e => ⟨0, 0, e⟩) 0 (chars "0.0000000000000000000000000000000000000000000000001e49" ++ [0]) 0 = .ok ⟨0x3F800000, .success, 54, 0, false⟩ := by
  decide +kernel

/-- test/inf.cpp:13-75: string, infinite, sign, characters consumed. -/
example : ∀ p ∈ [("inf", true, false, 3), ("0inf", false, false, 1), ("+inf", true, false, 4), ("-inf", true, true, 4),
      ("INf", true, false, 3), ("+InfINitY", true, false, 9), ("-inFIniTy", true, true, 9), ("infini", true, false, 3)],
    (atof .double (fun _ _ e => ⟨0, 0, e⟩) 0 (chars p.1 ++ [0]) 0).toOption.map
      (fun r => (decide (r.value % 2 ^ 63 = posInf .double), decide (r.value / 2 ^ 63 = 1), r.strEnd, r.status, r.fellBack)) =
    some (p.2.1, p.2.2.1, p.2.2.2, .success, false) := by decide +kernel

/-- test/nan.cpp:13-82: string, NaN, characters consumed. -/
example : ∀ p ∈ [("nan", true, 3), ("0nan", false, 1), ("+nan", true, 4), ("-nan", true, 4), ("NaN", true, 3),
      ("+Nan", true, 4), ("-naN", true, 4), ("naN(12356)", true, 10), ("naN(12356", true, 3)],
    (atof .double (fun _ _ e => ⟨0, 0, e⟩) 0 (chars p.1 ++ [0]) 0).toOption.map
      (fun r => (decide (posInf .double < r.value % 2 ^ 63), r.strEnd, r.status, r.fellBack)) =
    some (p.2.1, p.2.2, .success, false) := by decide +kernel

/-- test/diy_fp_inc_dec.cpp:16-46. -/
example : DiyFp.inc 32 ⟨1, 0⟩ = ⟨2, 0⟩ ∧ DiyFp.dec 32 ⟨2, 0⟩ = ⟨1, 0⟩ ∧
    DiyFp.inc 32 ⟨2 ^ 32 - 1, 2⟩ = ⟨2 ^ 31, 3⟩ ∧ DiyFp.dec 32 ⟨1, 2⟩ = ⟨1, 1⟩ := by decide +kernel

/-- test/diy_fp_uoflow.cpp:14-32. -/
example : ((DiyFp.downsample .float ⟨2 ^ 32 - 1, 129⟩).toOption.map (·.status)) = some .overflow ∧
    ((DiyFp.downsample .float ⟨2 ^ 32 - 1, -125 - 256⟩).toOption.map (fun r => (r.value, r.status))) = some (0, .underflow) := by
  decide +kernel

/-- test/diy_fp_conversion.cpp:14-26: pi. -/
example : ((DiyFp.normalize 64 (DiyFp.ofFloat .double 0x400921fb54442d18)).toOption.map
    (fun w => (w.downsample .double).toOption.map (·.value))) = some (some 0x400921fb54442d18) := by decide +kernel

/-- test/default_fallback.cpp:38-46: `check_errno`. -/
example : checkErrno .float 0 0x3F000000 = .success ∧ checkErrno .float ERANGE 0 = .underflow := by decide +kernel

/-- test/string_wrappers.cpp:8-30 and test/ftoa_zero.cpp:11-27. -/
example : toBasicString .float 0x3F000000 = .ok (chars "0.5") ∧
    (ftoa .double 0 (List.replicate (maxBufferSize .double) 7)).toOption.map (fun r => (cstr r.1, r.2)) = some (chars "0", 1) := by
  decide +kernel

end Floaxie
