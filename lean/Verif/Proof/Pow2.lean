import Verif.Proof.PowChunks
import Verif.Proof.Krosh

/-!
# Printing and parsing back all powers of two

`grisu2` and the scaling step of `krosh` with the table lookup as a parameter:
literal copies of the model, equal to it by definition; evaluated by the kernel
on every normal power of two of both types.
-/

namespace Floaxie

open FloatType

/-- `grisu2` with the table lookup `cp`. -/
def grisu2P (cp : FloatType → Int → M DiyFp) (T : FloatType) (bits : Nat) (buf : List Nat) (o : Nat) :
    M (List Nat × Nat × Int) := do
  let (wm, wp) ← boundaries T bits
  let mk := kCompExp T.alpha wp.e
  let cmk ← cp T mk
  let wm := wm.mul T.W cmk
  let wp := wp.mul T.W cmk
  let wm := wm.inc T.W
  let wp := wp.dec T.W
  digitGen T wp wm buf o (-mk)

/-- The scaling step of `krosh` with the table lookup `cp`. -/
def scaleStepP (cp : FloatType → Int → M DiyFp) (T : FloatType) (w : DiyFp) (K : Int) : M DiyFp := do
  let w ← (if K ≠ 0 then do
      let c ← cp T K
      pure (w.mul T.W c)
    else pure w : M DiyFp)
  w.normalize T.W

theorem grisu2P_eq (T : FloatType) (bits : Nat) (buf : List Nat) (o : Nat) :
    grisu2P fastPower T bits buf o = grisu2 T bits buf o := by
  rw [show (fastPower : FloatType → Int → M DiyFp) = cachedPower from funext fastPower_eq]; rfl

theorem scaleStepP_eq (T : FloatType) (w : DiyFp) (K : Int) : scaleStepP fastPower T w K = scaleStep T w K := by
  rw [show (fastPower : FloatType → Int → M DiyFp) = cachedPower from funext fastPower_eq]; rfl

/-- Value of a list of digit characters. -/
def charsVal (cs : List Nat) : Nat := cs.foldl (fun a c => a * 10 + (c - 48)) 0

/-- Digits of the power of two with biased exponent `e`, as `grisu2` makes them,
scaled back the way `krosh` does: without fallback, and to itself, or to half of
it if `e` is in the list `L`. -/
def pow2Check (T : FloatType) (L : List Nat) (e : Nat) : Bool :=
  match grisu2P fastPower T (e * 2 ^ (T.p - 1)) (List.replicate 17 0) 0 with
  | .ok (buf, len, K) =>
    match DiyFp.normalize T.W { f := charsVal (buf.take len), e := 0 } with
    | .ok w =>
      match scaleStepP fastPower T w K with
      | .ok w =>
        match w.downsample T with
        | .ok v => decide (v = ⟨if L.contains e then (e - 1) * 2 ^ (T.p - 1) else e * 2 ^ (T.p - 1), .success, true⟩)
        | _ => false
      | _ => false
    | _ => false
  | _ => false

/-- Biased exponents of the powers of two of `double` that do not survive the
round trip, in ranges of 64. -/
def lostD : Nat → List Nat
  | 0 => [26, 36, 39, 40, 41, 42]
  | 1 => [84, 85, 92, 93, 94, 95, 108, 128]
  | 2 => [129, 135, 152, 162, 175, 184, 185, 186, 187, 188]
  | 3 => [228]
  | 4 => [301, 313, 314, 315]
  | 5 => [331, 344, 345, 348, 364, 368, 374, 383, 384]
  | 6 => [398, 399, 400, 401, 410, 411, 420, 421, 422, 423, 424]
  | 7 => [459, 460, 461, 481, 507]
  | 8 => [554, 555, 556, 557, 567]
  | 9 => [577, 586, 587, 593, 594, 627, 637]
  | 10 => [646, 647, 667, 676, 677]
  | 11 => [713, 719, 720, 738, 739, 740, 746, 750]
  | 12 => [780, 783, 784, 785, 786, 802, 803, 813, 820]
  | 13 => [833, 853, 856, 859, 874, 875, 876]
  | 14 => [898, 899, 900, 901, 902, 903, 904, 905, 906, 922, 923, 949, 958, 959]
  | 15 => [964, 965, 971, 972, 982, 994, 995, 996]
  | 16 => []
  | 17 => [1095, 1096, 1097, 1098, 1115, 1122, 1127, 1128, 1137, 1138]
  | 18 => [1200, 1201]
  | 19 => [1225, 1231, 1232, 1233, 1234, 1235, 1258, 1274]
  | 20 => [1288, 1294, 1303, 1304, 1308, 1314, 1318, 1321, 1322, 1323, 1324, 1335, 1336, 1337, 1338, 1341, 1342, 1343, 1344]
  | 21 => [1345, 1346, 1347, 1357, 1358, 1374, 1381, 1387, 1391]
  | 22 => [1424, 1437, 1447, 1451, 1460, 1461, 1467]
  | 23 => [1474, 1475, 1476, 1477, 1493, 1509, 1510, 1511, 1512, 1513, 1514]
  | 24 => [1540, 1549, 1550, 1551, 1552, 1553, 1563, 1570, 1586, 1587]
  | 25 => [1604, 1605, 1606, 1607, 1620, 1640, 1641, 1642, 1643, 1653, 1654, 1655, 1656, 1657, 1658, 1659, 1660, 1663, 1664]
  | 26 => [1665, 1666, 1689, 1690, 1699]
  | 27 => [1729, 1730, 1738, 1739, 1740, 1743, 1781, 1782, 1783]
  | 28 => [1806, 1815, 1816, 1822, 1842, 1843, 1851, 1852, 1853, 1854, 1855, 1856]
  | 29 => [1862, 1863, 1864, 1865, 1866, 1871, 1872, 1873, 1874, 1875, 1876, 1877, 1878, 1879, 1883, 1899]
  | 30 => [1926, 1927, 1928, 1929, 1939, 1956, 1957, 1958, 1959, 1960, 1961, 1962, 1967, 1968, 1969]
  | 31 => [2004, 2005, 2042]
  | _ => []

/-- Biased exponents of the powers of two that do not survive the round trip. -/
def lostBiased : FloatType → List Nat
  | .float => [10, 11, 27, 41, 46, 47, 61, 73, 74, 75, 76, 77, 87, 92, 93, 94, 107, 111, 114, 156,
    157, 165, 166, 167, 170, 177, 180, 187, 188, 189, 190, 195, 196, 197, 206, 207, 236, 237, 253]
  | .double => (List.range 32).flatMap lostD

theorem pow2_float : (List.range' 1 254).all (pow2Check .float (lostBiased .float)) = true := by decide +kernel
set_option Elab.async false
theorem pow2_double0 : (List.range' 1 64).all (pow2Check .double (lostD 0)) = true := by decide +kernel
theorem pow2_double1 : (List.range' 65 64).all (pow2Check .double (lostD 1)) = true := by decide +kernel
theorem pow2_double2 : (List.range' 129 64).all (pow2Check .double (lostD 2)) = true := by decide +kernel
theorem pow2_double3 : (List.range' 193 64).all (pow2Check .double (lostD 3)) = true := by decide +kernel
theorem pow2_double4 : (List.range' 257 64).all (pow2Check .double (lostD 4)) = true := by decide +kernel
theorem pow2_double5 : (List.range' 321 64).all (pow2Check .double (lostD 5)) = true := by decide +kernel
theorem pow2_double6 : (List.range' 385 64).all (pow2Check .double (lostD 6)) = true := by decide +kernel
theorem pow2_double7 : (List.range' 449 64).all (pow2Check .double (lostD 7)) = true := by decide +kernel
theorem pow2_double8 : (List.range' 513 64).all (pow2Check .double (lostD 8)) = true := by decide +kernel
theorem pow2_double9 : (List.range' 577 64).all (pow2Check .double (lostD 9)) = true := by decide +kernel
theorem pow2_double10 : (List.range' 641 64).all (pow2Check .double (lostD 10)) = true := by decide +kernel
theorem pow2_double11 : (List.range' 705 64).all (pow2Check .double (lostD 11)) = true := by decide +kernel
theorem pow2_double12 : (List.range' 769 64).all (pow2Check .double (lostD 12)) = true := by decide +kernel
theorem pow2_double13 : (List.range' 833 64).all (pow2Check .double (lostD 13)) = true := by decide +kernel
theorem pow2_double14 : (List.range' 897 64).all (pow2Check .double (lostD 14)) = true := by decide +kernel
theorem pow2_double15 : (List.range' 961 64).all (pow2Check .double (lostD 15)) = true := by decide +kernel
theorem pow2_double16 : (List.range' 1025 64).all (pow2Check .double (lostD 16)) = true := by decide +kernel
theorem pow2_double17 : (List.range' 1089 64).all (pow2Check .double (lostD 17)) = true := by decide +kernel
theorem pow2_double18 : (List.range' 1153 64).all (pow2Check .double (lostD 18)) = true := by decide +kernel
theorem pow2_double19 : (List.range' 1217 64).all (pow2Check .double (lostD 19)) = true := by decide +kernel
theorem pow2_double20 : (List.range' 1281 64).all (pow2Check .double (lostD 20)) = true := by decide +kernel
theorem pow2_double21 : (List.range' 1345 64).all (pow2Check .double (lostD 21)) = true := by decide +kernel
theorem pow2_double22 : (List.range' 1409 64).all (pow2Check .double (lostD 22)) = true := by decide +kernel
theorem pow2_double23 : (List.range' 1473 64).all (pow2Check .double (lostD 23)) = true := by decide +kernel
theorem pow2_double24 : (List.range' 1537 64).all (pow2Check .double (lostD 24)) = true := by decide +kernel
theorem pow2_double25 : (List.range' 1601 64).all (pow2Check .double (lostD 25)) = true := by decide +kernel
theorem pow2_double26 : (List.range' 1665 64).all (pow2Check .double (lostD 26)) = true := by decide +kernel
theorem pow2_double27 : (List.range' 1729 64).all (pow2Check .double (lostD 27)) = true := by decide +kernel
theorem pow2_double28 : (List.range' 1793 64).all (pow2Check .double (lostD 28)) = true := by decide +kernel
theorem pow2_double29 : (List.range' 1857 64).all (pow2Check .double (lostD 29)) = true := by decide +kernel
theorem pow2_double30 : (List.range' 1921 64).all (pow2Check .double (lostD 30)) = true := by decide +kernel
theorem pow2_double31 : (List.range' 1985 62).all (pow2Check .double (lostD 31)) = true := by decide +kernel

theorem pow2_double (i : Nat) (hi : i < 32) (e : Nat) (h1 : 1 + 64 * i ≤ e) (h2 : e < 1 + 64 * (i + 1)) (h3 : e < 2047) :
    pow2Check .double (lostD i) e = true := by
  interval_cases i
  · exact List.all_eq_true.mp pow2_double0 e (List.mem_range'_1.mpr ⟨h1, h2⟩)
  · exact List.all_eq_true.mp pow2_double1 e (List.mem_range'_1.mpr ⟨h1, h2⟩)
  · exact List.all_eq_true.mp pow2_double2 e (List.mem_range'_1.mpr ⟨h1, h2⟩)
  · exact List.all_eq_true.mp pow2_double3 e (List.mem_range'_1.mpr ⟨h1, h2⟩)
  · exact List.all_eq_true.mp pow2_double4 e (List.mem_range'_1.mpr ⟨h1, h2⟩)
  · exact List.all_eq_true.mp pow2_double5 e (List.mem_range'_1.mpr ⟨h1, h2⟩)
  · exact List.all_eq_true.mp pow2_double6 e (List.mem_range'_1.mpr ⟨h1, h2⟩)
  · exact List.all_eq_true.mp pow2_double7 e (List.mem_range'_1.mpr ⟨h1, h2⟩)
  · exact List.all_eq_true.mp pow2_double8 e (List.mem_range'_1.mpr ⟨h1, h2⟩)
  · exact List.all_eq_true.mp pow2_double9 e (List.mem_range'_1.mpr ⟨h1, h2⟩)
  · exact List.all_eq_true.mp pow2_double10 e (List.mem_range'_1.mpr ⟨h1, h2⟩)
  · exact List.all_eq_true.mp pow2_double11 e (List.mem_range'_1.mpr ⟨h1, h2⟩)
  · exact List.all_eq_true.mp pow2_double12 e (List.mem_range'_1.mpr ⟨h1, h2⟩)
  · exact List.all_eq_true.mp pow2_double13 e (List.mem_range'_1.mpr ⟨h1, h2⟩)
  · exact List.all_eq_true.mp pow2_double14 e (List.mem_range'_1.mpr ⟨h1, h2⟩)
  · exact List.all_eq_true.mp pow2_double15 e (List.mem_range'_1.mpr ⟨h1, h2⟩)
  · exact List.all_eq_true.mp pow2_double16 e (List.mem_range'_1.mpr ⟨h1, h2⟩)
  · exact List.all_eq_true.mp pow2_double17 e (List.mem_range'_1.mpr ⟨h1, h2⟩)
  · exact List.all_eq_true.mp pow2_double18 e (List.mem_range'_1.mpr ⟨h1, h2⟩)
  · exact List.all_eq_true.mp pow2_double19 e (List.mem_range'_1.mpr ⟨h1, h2⟩)
  · exact List.all_eq_true.mp pow2_double20 e (List.mem_range'_1.mpr ⟨h1, h2⟩)
  · exact List.all_eq_true.mp pow2_double21 e (List.mem_range'_1.mpr ⟨h1, h2⟩)
  · exact List.all_eq_true.mp pow2_double22 e (List.mem_range'_1.mpr ⟨h1, h2⟩)
  · exact List.all_eq_true.mp pow2_double23 e (List.mem_range'_1.mpr ⟨h1, h2⟩)
  · exact List.all_eq_true.mp pow2_double24 e (List.mem_range'_1.mpr ⟨h1, h2⟩)
  · exact List.all_eq_true.mp pow2_double25 e (List.mem_range'_1.mpr ⟨h1, h2⟩)
  · exact List.all_eq_true.mp pow2_double26 e (List.mem_range'_1.mpr ⟨h1, h2⟩)
  · exact List.all_eq_true.mp pow2_double27 e (List.mem_range'_1.mpr ⟨h1, h2⟩)
  · exact List.all_eq_true.mp pow2_double28 e (List.mem_range'_1.mpr ⟨h1, h2⟩)
  · exact List.all_eq_true.mp pow2_double29 e (List.mem_range'_1.mpr ⟨h1, h2⟩)
  · exact List.all_eq_true.mp pow2_double30 e (List.mem_range'_1.mpr ⟨h1, h2⟩)
  · exact List.all_eq_true.mp pow2_double31 e (List.mem_range'_1.mpr ⟨h1, by omega⟩)

theorem lostD_range : ∀ i < 32, ∀ x ∈ lostD i, 1 + 64 * i ≤ x ∧ x < 1 + 64 * (i + 1) := by decide +kernel

theorem pow2Check_congr {T : FloatType} {L L' : List Nat} {e : Nat} (h : L.contains e = L'.contains e) :
    pow2Check T L e = pow2Check T L' e := by
  unfold pow2Check; rw [h]

theorem lostBiased_double : lostBiased .double = (List.range 32).flatMap lostD := rfl

theorem lost_contains (e : Nat) (h1 : 1 ≤ e) (h2 : e < 2047) :
    (lostD ((e - 1) / 64)).contains e = (lostBiased .double).contains e := by
  rw [Bool.eq_iff_iff, List.contains_iff_mem, List.contains_iff_mem, lostBiased_double, List.mem_flatMap]
  constructor
  · intro hx; exact ⟨_, List.mem_range.mpr (by omega), hx⟩
  · rintro ⟨i, hi, hx⟩
    have := lostD_range i (List.mem_range.mp hi) e hx
    rwa [show (e - 1) / 64 = i by omega]

theorem pow2_all (T : FloatType) (e : Nat) (h1 : 1 ≤ e) (h2 : e < 2 ^ (T.W - T.p) - 1) : pow2Check T (lostBiased T) e = true := by
  cases T with
  | float => exact List.all_eq_true.mp pow2_float e (List.mem_range'_1.mpr ⟨h1, by simp only [FloatType.W, FloatType.p] at h2; omega⟩)
  | double =>
    have h3 : e < 2047 := by simp only [FloatType.W, FloatType.p] at h2; omega
    rw [← pow2Check_congr (lost_contains e h1 h3)]
    exact pow2_double ((e - 1) / 64) (by omega) e (by omega) (by omega) h3

end Floaxie
