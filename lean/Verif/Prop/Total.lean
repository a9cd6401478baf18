import Verif.Prop.Spelling
import Verif.Proof.Total
import Verif.Proof.Limit

/-!
# Every NUL-terminated string (C29, C30, C31, C41, C42)
-/

namespace Floaxie

open Spec FloatType

theorem nul_str {pre s post : List Nat} : Nul (pre ++ s ++ 0 :: post) pre.length :=
  ⟨pre.length + s.length, by omega, by rw [List.append_assoc, List.getElem?_append_right (by omega)]; simp⟩

/-- In the shortest memory the NULs are where expected. -/
theorem nul_le {s : List Nat} {i : Nat} : Nul (s ++ [0]) i ↔ i ≤ s.length := by
  constructor
  · rintro ⟨z, h1, h2⟩
    obtain ⟨hz, -⟩ := List.getElem?_eq_some_iff.mp h2
    simp at hz; omega
  · intro h
    exact ⟨s.length, h, by simp⟩

/-- The string in the shortest memory and in any other. -/
theorem holds_str (pre s post : List Nat) : Holds (s ++ [0]) (pre ++ s ++ 0 :: post) pre.length := by
  intro i c h
  rw [show pre ++ s ++ 0 :: post = pre ++ ((s ++ [0]) ++ post) by simp, Nat.add_comm, List.getElem?_append_right (by omega),
    Nat.add_sub_cancel_left, List.getElem?_append_left]
  · exact h
  · exact (List.getElem?_eq_some_iff.mp h).1

/-- A result with its end pointer moved by `δ`. -/
def AtofResult.shift (δ : Nat) (r : AtofResult) : AtofResult := { r with strEnd := r.strEnd + δ }

/-- The same for the result of a fallback. -/
def FallbackResult.shift (δ : Nat) (r : FallbackResult) : FallbackResult := { r with strEnd := r.strEnd + δ }

theorem krosh_str (T : FloatType) (s : List Nat) :
    (∃ r, krosh T (s ++ [0]) 0 = .ok r ∧ r.strEnd ≤ s.length) ∨
      krosh T (s ++ [0]) 0 = .error .badIndex ∨ krosh T (s ++ [0]) 0 = .error .signedOverflow := by
  rcases krosh_total (T := T) (show Nul (s ++ [0]) 0 from nul_le.mpr (by omega)) with ⟨r, h1, -, h2⟩ | ⟨-, h⟩
  · exact Or.inl ⟨r, h1, nul_le.mp h2⟩
  · exact Or.inr h

theorem krosh_moved {T : FloatType} {pre s post : List Nat} :
    krosh T (pre ++ s ++ 0 :: post) pre.length =
      (krosh T (s ++ [0]) 0).map (fun r => { r with strEnd := r.strEnd + pre.length }) := by
  have h := krosh_local (holds_str pre s post) T 0
  rw [Nat.zero_add] at h
  rcases h with h | h | h
  · rcases krosh_str T s with ⟨r, g, -⟩ | g | g <;> · rw [h] at g; cases g
  · rcases krosh_str T s with ⟨r, g, -⟩ | g | g <;> · rw [h] at g; cases g
  · exact h

theorem atof_error {T : FloatType} {fb : Fallback} {errno : Nat} {mem : List Nat} {str : Nat} {e : UB} :
    atof T fb errno mem str = .error e ↔ krosh T mem str = .error e := by
  unfold atof
  cases h : krosh T mem str with
  | error u => simp [bind, Except.bind]
  | ok r =>
    rw [ok_bind]
    split_ifs <;> simp [pure, Except.pure]

/-! ## C30 -/

/-- **C30.** A call on the NUL-terminated string `s`, wherever it lies and
whatever surrounds it: the outcome is that of a call in a memory holding just
`s` and its terminator, with the end pointer moved; and in that memory no access
is out of bounds, so nothing but `s` and the terminator is ever read.  (The fallback, too, must look at the string only.) -/
theorem C30_only_the_string (T : FloatType) (fb : Fallback) (errno : Nat) (pre s post : List Nat)
    (hfb : fb (pre ++ s ++ 0 :: post) pre.length errno = (fb (s ++ [0]) 0 errno).shift pre.length) :
    atof T fb errno (pre ++ s ++ 0 :: post) pre.length = (atof T fb errno (s ++ [0]) 0).map (AtofResult.shift pre.length) ∧
    atof T fb errno (s ++ [0]) 0 ≠ .error .oobRead ∧ atof T fb errno (s ++ [0]) 0 ≠ .error .noTermination := by
  refine ⟨?_, ?_, ?_⟩
  · unfold atof
    rw [krosh_moved]
    cases krosh T (s ++ [0]) 0 with
    | error e => rfl
    | ok r =>
      simp only [Except.map, ok_bind]
      by_cases h0 : r.strEnd = 0
      · rw [if_neg (by omega), if_neg (by omega)]; rfl
      · rw [if_pos (by omega), if_pos h0]
        cases r.isAccurate with
        | true => rfl
        | false => rw [hfb]; rfl
  all_goals
    intro h
    rw [atof_error] at h
    rcases krosh_str T s with ⟨r, g, -⟩ | g | g <;> · rw [h] at g; cases g

/-- A fallback that looks at the string only, and a string in the middle of other data. -/
example (T : FloatType) : atof T (fun _ i _ => ⟨7, i + 3, 0⟩) 0 (chars "abc" ++ chars "nan(12" ++ 0 :: chars "3)") 3 =
    (atof T (fun _ i _ => ⟨7, i + 3, 0⟩) 0 (chars "nan(12" ++ [0]) 0).map (AtofResult.shift 3) :=
  (C30_only_the_string T _ 0 (chars "abc") (chars "nan(12") (chars "3)") (by decide)).1

/-! ## C29 -/

/-- **C29.** Whenever the call on a NUL-terminated string completes without
asking the fallback, the end pointer lies between the start of the string and
its terminator. -/
theorem C29_end_inside (T : FloatType) (fb : Fallback) (errno : Nat) (pre s post : List Nat) (r : AtofResult)
    (h : atof T fb errno (pre ++ s ++ 0 :: post) pre.length = .ok r) (hf : r.fellBack = false) :
    pre.length ≤ r.strEnd ∧ r.strEnd ≤ pre.length + s.length := by
  unfold atof at h
  rw [krosh_moved] at h
  rcases krosh_str T s with ⟨k, g, g2⟩ | g | g
  · rw [g] at h
    simp only [Except.map, ok_bind] at h
    split_ifs at h with h1 h2
    · cases h; exact ⟨by dsimp only; omega, by dsimp only; omega⟩
    · cases h; cases hf
    · cases h; exact ⟨by dsimp only; omega, by dsimp only; omega⟩
  · rw [g] at h; cases h
  · rw [g] at h; cases h

/-- If it does ask, the end pointer is the one the fallback reports. -/
theorem C29_end_delegated (T : FloatType) (fb : Fallback) (errno : Nat) (mem : List Nat) (str : Nat) (r : AtofResult)
    (h : atof T fb errno mem str = .ok r) (hf : r.fellBack = true) : r.strEnd = (fb mem str errno).strEnd := by
  unfold atof at h
  cases hk : krosh T mem str with
  | error e => rw [hk] at h; cases h
  | ok k =>
    rw [hk, ok_bind] at h
    split_ifs at h with h1 h2
    · cases h; cases hf
    · cases h; rfl
    · cases h; cases hf

/-- "12.5xyz" between other data. -/
example (fb : Fallback) : atof .double fb 0 (chars "ab" ++ chars "12.5xyz" ++ 0 :: chars "99") 2 =
    .ok ⟨0x4029000000000000, .success, 6, 0, false⟩ := by
  have : krosh .double (chars "ab" ++ chars "12.5xyz" ++ 0 :: chars "99") 2 = .ok ⟨0x4029000000000000, 6, .success, true⟩ := by
    decide +kernel
  rw [atof_of_krosh this (by decide)]; rfl

/-! ## C31 -/

/-- **C31, the good part.** On every NUL-terminated string the call completes,
or it runs into one of two kinds of undefined behaviour - an index outside a
table, or signed overflow - and then the string starts with a non-zero numeral
followed by `e` or `E`. -/
theorem C31_defined_without_exponent (T : FloatType) (fb : Fallback) (errno : Nat) (mem : List Nat) (str : Nat) (hm : Nul mem str) :
    (∃ r, atof T fb errno mem str = .ok r) ∨
    ((atof T fb errno mem str = .error .badIndex ∨ atof T fb errno mem str = .error .signedOverflow) ∧
      ∃ (n : Numeral) (e : Nat) (R : List Nat), (e = 'e'.toNat ∨ e = 'E'.toNat) ∧ digitsVal (n.int ++ n.fracDigits) ≠ 0 ∧
        mem.drop str = (signText n.sign ++ n.mantText) ++ e :: R) := by
  rcases krosh_total (T := T) hm with ⟨r, h1, -⟩ | ⟨⟨n, c, R, -, h2, h3, h4, -⟩, h⟩
  · left
    cases ha : atof T fb errno mem str with
    | ok r => exact ⟨r, rfl⟩
    | error e => rw [atof_error.mp ha] at h1; cases h1
  · right
    rw [atof_error, atof_error]
    exact ⟨h, n, c, R, h3, h4, h2⟩

theorem ender_exp {n : Numeral} {c : Nat} (hc : c = 'e'.toNat ∨ c = 'E'.toNat) : Ender n c := by
  refine ⟨?_, ?_, ?_, ?_⟩
  · unfold IsDig; rcases hc with rfl | rfl <;> decide
  · intro h; exfalso; revert h; rcases hc with rfl | rfl <;> decide
  · intro h; exfalso; revert h; rcases hc with rfl | rfl <;> decide
  · intro h; exfalso; revert h; rcases hc with rfl | rfl <;> decide

/-- `krosh` on a non-zero numeral followed by `e`, in terms of the exponent digits. -/
theorem krosh_exp {T : FloatType} {mem : List Nat} {str : Nat} {n : Numeral} {c : Nat} {R : List Nat} {dp : DigitParseResult}
    (hm : mem.drop str = scanText n ++ c :: R) (hc : c = 'e'.toNat ∨ c = 'E'.toNat) (h0 : digitsVal (allDigits n) ≠ 0)
    (hl : (scanText n).length ≤ 2049) (hd : parseDigits .float mem (str + (scanText n).length + 1) = .ok dp)
    (hK : -2050 ≤ dp.K ∧ dp.K ≤ 2050) :
    (krosh T mem str = .error .badIndex ↔ ¬ (0 ≤ dp.K ∧ dp.K ≤ 3)) ∧
    ((0 ≤ dp.K ∧ dp.K ≤ 3) → dp.value * 10 ^ dp.K.toNat < 10 ^ 9 → ∃ w K, 2 ^ (T.W - 1) ≤ w.f ∧ w.f < 2 ^ T.W ∧
      (∃ P K0 frac, ReadsExact T.digits10 n P K0 frac ∧ P ≠ 0 ∧ adjustMantissa T P frac = .ok w ∧
        K = K0 + (if dp.sign then ((dp.value * 10 ^ dp.K.toNat : Nat) : Int) else -((dp.value * 10 ^ dp.K.toNat : Nat) : Int))) ∧
      krosh T mem str = kroshTail T w K (!n.isNeg) dp.strEnd) := by
  obtain ⟨P, K, frac, w, h1, h1', h2, h3, h4⟩ := parseMantissa_num (T := T) hm (ender_exp hc) hl
  have hP : P ≠ 0 := by
    intro hz
    rw [h1.zero_iff] at hz
    unfold mantVal at hz
    rcases mul_eq_zero.mp hz with hz | hz
    · exact h0 (by exact_mod_cast hz)
    · exact absurd hz (zpow_ne_zero _ (by norm_num))
  obtain ⟨w', Y, w1, w2, w3, -⟩ := mantissa_ok h1 hP
  have hww : w = w' := by
    have := h2 hP
    rw [w1] at this
    exact (Except.ok.inj this).symm
  subst hww
  have hf : w.f ≠ 0 := by
    have : 0 < 2 ^ (T.W - 1) := by positivity
    omega
  have hg : mem[str + (scanText n).length]? = some c := by
    apply get_of_drop (r := R)
    rw [← List.drop_drop, hm, List.drop_left]
  have hKb := h1.K_bound hP hl
  have hpe := parseExponent_digits hg hc hd hK
  constructor
  · by_cases hk : 0 ≤ dp.K ∧ dp.K ≤ 3
    · refine ⟨fun h => ?_, fun h => absurd hk h⟩
      exfalso
      rw [if_pos hk] at hpe
      have fin : ∀ v : Int, ¬ parseExponent mem (str + (scanText n).length) = .ok { value := v, strEnd := dp.strEnd } := by
        intro v he
        by_cases hb : -(2 ^ 31) ≤ K + v ∧ K + v < 2 ^ 31
        · rw [krosh_eq_tail h4 rfl hf he hb] at h
          rcases kroshTail_total w2 w3 (K + v) with ⟨-, t⟩ | ⟨-, v, st, acc, -, t⟩ <;> · rw [t] at h; cases h
        · unfold krosh at h
          rw [h4, ok_bind, if_pos ⟨rfl, hf⟩] at h
          dsimp only at h
          rw [he, ok_bind] at h
          dsimp only at h
          unfold chkInt at h
          rw [if_neg hb] at h
          cases h
      generalize toInt32 (dp.value * 10 ^ dp.K.toNat) = v at hpe
      cases hsg : dp.sign with
      | true => rw [hsg] at hpe; exact fin v hpe
      | false =>
        rw [hsg] at hpe
        simp only [Bool.not_false, if_true] at hpe
        unfold chkInt at hpe
        by_cases hb : -(2 ^ 31) ≤ -v ∧ -v < 2 ^ 31
        · rw [if_pos hb] at hpe; exact fin (-v) hpe
        · rw [if_neg hb] at hpe
          unfold krosh at h
          rw [h4, ok_bind, if_pos ⟨rfl, hf⟩] at h
          dsimp only at h
          rw [hpe] at h
          cases h
    · refine ⟨fun _ => hk, fun _ => ?_⟩
      rw [if_neg hk] at hpe
      unfold krosh
      rw [h4, ok_bind, if_pos ⟨rfl, hf⟩]
      dsimp only
      rw [hpe]; rfl
  · intro hk hv
    refine ⟨w, _, w2, w3, ⟨P, K, frac, h1', hP, w1, rfl⟩, ?_⟩
    rw [if_pos hk, toInt32_small (by omega)] at hpe
    generalize dp.value * 10 ^ dp.K.toNat = v at hv hpe
    cases hsg : dp.sign with
    | true =>
      rw [hsg] at hpe
      have he : parseExponent mem (str + (scanText n).length) = .ok { value := (v : Int), strEnd := dp.strEnd } := hpe
      rw [krosh_eq_tail h4 rfl hf he (by dsimp only; omega)]
      rfl
    | false =>
      rw [hsg] at hpe
      have he : parseExponent mem (str + (scanText n).length) = .ok { value := -(v : Int), strEnd := dp.strEnd } := by
        rw [hpe]
        simp only [Bool.not_false, if_true]
        unfold chkInt
        rw [if_pos (by omega)]; rfl
      rw [krosh_eq_tail h4 rfl hf he (by dsimp only; omega)]
      rfl

/-- What the exponent reader sees. -/
theorem withExponent_digits {mem : List Nat} {str : Nat} {n x : Numeral} (h : WithExponent mem str n x) (hn : Nul mem str) :
    ∃ c R dp frac, mem.drop str = scanText n ++ c :: R ∧ (c = 'e'.toNat ∨ c = 'E'.toNat) ∧
      parseDigits .float mem (str + (scanText n).length + 1) = .ok dp ∧ Reads 9 x dp.value dp.K frac ∧
      (-2050 ≤ dp.K ∧ dp.K ≤ 2050) ∧ dp.sign = !x.isNeg ∧
      dp.strEnd = str + (scanText n).length + 1 + min (scanText x).length 2049 := by
  obtain ⟨e, R, he, hm, hx⟩ := h.text
  have hm' : mem.drop str = scanText n ++ e :: (scanText x ++ R) := hm
  have hg : mem[str + (scanText n).length]? = some e := by
    apply get_of_drop (r := scanText x ++ R)
    rw [← List.drop_drop, hm', List.drop_left]
  have hm2 : mem.drop (str + (scanText n).length + 1) = scanText x ++ R := by
    rw [← List.drop_drop, ← List.drop_drop, hm', List.drop_left]; rfl
  have hK : ∀ {P : Nat} {K : Int} {frac : Nat}, Reads 9 x P K frac → (scanText x).length ≤ 2050 → -2050 ≤ K ∧ K ≤ 2050 := by
    intro P K frac hr hl
    have hlen := scanText_length x
    have hnf : x.fracDigits.length ≤ (allDigits x).length := by simp [allDigits]
    rcases hr with ⟨-, -, rfl, -⟩ | ⟨z, ds, tail, g1, -, -, -, hK, -⟩
    · norm_num
    · have : tail.length ≤ (allDigits x).length := by rw [g1]; simp; omega
      omega
  have hxd : x.int ≠ [] ∨ x.frac.isSome = true := by
    by_contra hc
    push Not at hc
    apply h.digits
    cases hf : x.frac with
    | none => simp [Numeral.fracDigits, hf, hc.1]
    | some f => rw [hf] at hc; simp at hc
  have hxt : scanText x ≠ [] := by
    intro hc
    have h1 := scanText_length x
    rw [hc] at h1
    have : 0 < (allDigits x).length := List.length_pos_iff.mpr h.digits
    simp at h1; omega
  rcases hx with ⟨hl, c, R', rfl, hc, hdot⟩ | hl
  · have hend : Ender x c := by
      refine ⟨hc, fun hd => ?_, fun _ => hxt, fun _ => hxd⟩
      cases hf : x.frac with
      | none => exact absurd hf (hdot hd)
      | some f => rfl
    obtain ⟨P, K, frac, h1, -, h2⟩ := parseDigits_num (T := .float) hm2 hend hl
    refine ⟨e, _, _, frac, hm', he, h2, h1, hK h1 (show (scanText x).length ≤ 2050 from by
      have : (scanText x).length ≤ 2049 := hl
      omega), rfl, ?_⟩
    dsimp only
    rw [min_eq_left (show (scanText x).length ≤ 2049 from hl)]
  · have hl' : (scanText x).length = 2050 := hl
    have hne : ∀ c ∈ scanText n ++ e :: scanText x, c ≠ 0 := by
      intro c hc
      rw [List.mem_append, List.mem_cons] at hc
      rcases hc with hc | rfl | hc
      · exact scanText_ne_zero n c hc
      · rintro rfl; revert he; decide
      · exact scanText_ne_zero x c hc
    have hst : Stops mem (str + (scanText n).length + 1 + (scanText x).length) := by
      apply Nul.stops
      have := hn.skip (t := scanText n ++ e :: scanText x) ?_ hne
      · convert this using 1; simp; omega
      · rw [show str + (scanText n ++ e :: scanText x).length = str + (scanText n).length + 1 + (scanText x).length by simp; omega,
          ← List.drop_drop (i := (scanText x).length), hm2, List.drop_left, hm']; simp
    obtain ⟨P, K, frac, h1, h2⟩ := parseDigits_limit (T := .float) hm2 hst hl'
    refine ⟨e, _, _, frac, hm', he, h2, h1, hK h1 (by omega), rfl, ?_⟩
    dsimp only
    rw [hl']; rfl

theorem reads_K_bound {x : Numeral} {P : Nat} {K : Int} {frac : Nat} (hr : Reads 9 x P K frac) (hl : (scanText x).length ≤ 2050) :
    -2050 ≤ K ∧ K ≤ 2050 := by
  have hlen := scanText_length x
  have hnf : x.fracDigits.length ≤ (allDigits x).length := by simp [allDigits]
  rcases hr with ⟨-, -, rfl, -⟩ | ⟨z, ds, tail, g1, -, -, -, hK, -⟩
  · norm_num
  · have : tail.length ≤ (allDigits x).length := by rw [g1]; simp; omega
    omega

/-- Undefined behaviour comes from exponent digits. -/
theorem error_withExponent {T : FloatType} {mem : List Nat} {str : Nat} {u : UB} (hm : Nul mem str) (h : krosh T mem str = .error u) :
    ∃ n x, WithExponent mem str n x ∧
      ((u = .badIndex ∧ ExpFault x.int x.fracDigits) ∨
       (u = .signedOverflow ∧ 10 ^ 9 ≤ digitsVal x.int ∧ ¬ ExpFault x.int x.fracDigits)) := by
  rcases krosh_total (T := T) hm with ⟨r, h1, -⟩ | ⟨⟨n, c, R, -, h2, h3, h4, h5⟩, herr⟩
  · rw [h] at h1; cases h1
  · have hg : mem[str + (scanText n).length]? = some c := by
      apply get_of_drop (r := R)
      rw [← List.drop_drop, h2, List.drop_left]
    have hR : R = mem.drop (str + (scanText n).length + 1) := by
      rw [← List.drop_drop, ← List.drop_drop, h2, List.drop_left]; rfl
    have hnul : Nul mem (str + (scanText n).length + 1) := by
      have := hm.skip (t := scanText n) (by rw [← List.drop_drop, h2, List.drop_left]) (scanText_ne_zero n)
      exact this.next hg (by rintro rfl; revert h3; decide)
    obtain ⟨dp, d1, d2⟩ := parseDigits_total (T := .float) hnul
    -- what kind of error it is
    have kind : ∀ {x : Numeral} {frac : Nat}, Reads 9 x dp.value dp.K frac → (scanText x).length ≤ 2050 →
        x.int ++ x.fracDigits ≠ [] ∧ ((u = .badIndex ∧ ExpFault x.int x.fracDigits) ∨
          (u = .signedOverflow ∧ 10 ^ 9 ≤ digitsVal x.int ∧ ¬ ExpFault x.int x.fracDigits)) := by
      intro x frac hr hl
      have hb := reads_K_bound hr hl
      have hk := krosh_exp (T := T) h2 h3 h4 h5 d1 hb
      by_cases hfault : ExpFault x.int x.fracDigits
      · refine ⟨?_, Or.inl ⟨?_, hfault⟩⟩
        · intro hc
          rw [List.append_eq_nil_iff] at hc
          rw [hc.1, hc.2] at hfault
          unfold ExpFault at hfault
          simp [digitsVal] at hfault
        · have := hk.1.mpr ((expFault_iff hr).mpr hfault)
          rw [this] at h; cases h; rfl
      · have hin : 0 ≤ dp.K ∧ dp.K ≤ 3 := by
          by_contra hc; exact hfault ((expFault_iff hr).mp hc)
        have hbig : 10 ^ 9 ≤ digitsVal x.int := by
          by_contra hc
          have hv := exp_value hr hin (by omega)
          obtain ⟨w, K, w1, w2, -, hkr⟩ := hk.2 hin (by omega)
          rw [hkr] at h
          rcases kroshTail_total w1 w2 K with ⟨-, t⟩ | ⟨-, v, st, acc, -, t⟩ <;> · rw [t] at h; cases h
        refine ⟨?_, Or.inr ⟨?_, hbig, hfault⟩⟩
        · intro hc
          rw [List.append_eq_nil_iff] at hc
          rw [hc.1] at hbig
          simp [digitsVal] at hbig
        · rcases herr with he | he
          · exact absurd hin (hk.1.mp he)
          · rw [he] at h; cases h; rfl
    cases d2 with
    | num x P K frac c' g1 g2 g3 g4 g5 g6 =>
      obtain ⟨k1, k2⟩ := kind g6 (by omega)
      refine ⟨n, x, ⟨⟨c, c' :: mem.drop (str + (scanText n).length + 1 + (scanText x).length + 1), h3, ?_,
        Or.inl ⟨g2, c', _, rfl, g5.dig, ?_⟩⟩, h5, h4, k1⟩, k2⟩
      · show mem.drop str = scanText n ++ c :: (scanText x ++ _)
        rw [h2, hR, g3, ← drop_of_get g4]
      · intro hc hf
        have := g5.dot hc
        rw [hf] at this; cases this
    | limit x P K frac g1 g2 g3 g4 =>
      obtain ⟨k1, k2⟩ := kind g4 (by omega)
      refine ⟨n, x, ⟨⟨c, mem.drop (str + (scanText n).length + 1 + 2050), h3, ?_, Or.inr g2⟩, h5, h4, k1⟩, k2⟩
      show mem.drop str = scanText n ++ c :: (scanText x ++ _)
      rw [h2, hR, g3]
    | word s isNan eaten c' g1 g2 g3 g4 g5 =>
      obtain ⟨w, K, w1, w2, -, hkr⟩ := (krosh_exp (T := T) h2 h3 h4 h5 d1 (by dsimp only; norm_num)).2
        ⟨le_rfl, by dsimp only; norm_num⟩ (by dsimp only; norm_num)
      rw [hkr] at h
      rcases kroshTail_total w1 w2 K with ⟨-, t⟩ | ⟨-, v, st, acc, -, t⟩ <;> · rw [t] at h; cases h

/-- **C31, the bad part, exactly.** A call on a NUL-terminated string looks up a
power of ten outside the table if and only if the string starts with a non-zero
numeral, then `e` or `E`, then exponent digits that are `ExpFault`: a non-zero
multiple of 10000, at least 10^12, or with a non-zero fractional part and below
10^8. -/
theorem C31_badIndex_iff (T : FloatType) (fb : Fallback) (errno : Nat) (mem : List Nat) (str : Nat) (hm : Nul mem str) :
    atof T fb errno mem str = .error .badIndex ↔
      ∃ n x, WithExponent mem str n x ∧ ExpFault x.int x.fracDigits := by
  rw [atof_error]
  constructor
  · intro h
    obtain ⟨n, x, h1, ⟨-, h2⟩ | ⟨h2, -⟩⟩ := error_withExponent hm h
    · exact ⟨n, x, h1, h2⟩
    · cases h2
  · rintro ⟨n, x, hx, hf⟩
    obtain ⟨c, R, dp, frac, h1, h2, h3, h4, h5, -⟩ := withExponent_digits hx hm
    rw [(krosh_exp (T := T) h1 h2 hx.nonzero hx.len h3 h5).1, expFault_iff h4]
    exact hf

/-- **C31, the rest.** The only other undefined behaviour is signed overflow, and
it takes an exponent of at least 10^9. -/
theorem C31_other_errors (T : FloatType) (fb : Fallback) (errno : Nat) (mem : List Nat) (str : Nat) (hm : Nul mem str) (u : UB)
    (h : atof T fb errno mem str = .error u) (hu : u ≠ .badIndex) :
    u = .signedOverflow ∧ ∃ n x, WithExponent mem str n x ∧ 10 ^ 9 ≤ digitsVal x.int := by
  obtain ⟨n, x, h1, ⟨h2, -⟩ | ⟨h2, h3, -⟩⟩ := error_withExponent hm (atof_error.mp h)
  · exact absurd h2 hu
  · exact ⟨h2, n, x, h1, h3⟩

/-- **C31, corollary.** With an exponent below 10^9 that is not `ExpFault` the
call completes. -/
theorem C31_small_exponent_defined (T : FloatType) (fb : Fallback) (errno : Nat) (mem : List Nat) (str : Nat) (hm : Nul mem str)
    (n x : Numeral) (hx : WithExponent mem str n x) (hf : ¬ ExpFault x.int x.fracDigits) (hs : digitsVal x.int < 10 ^ 9) :
    ∃ r, atof T fb errno mem str = .ok r := by
  obtain ⟨c, R, dp, frac, h1, h2, h3, h4, h5, -⟩ := withExponent_digits hx hm
  have hk : 0 ≤ dp.K ∧ dp.K ≤ 3 := by
    by_contra hc; exact hf ((expFault_iff h4).mp hc)
  have hv := exp_value h4 hk hs
  obtain ⟨w, K, w1, w2, -, hkr⟩ := (krosh_exp (T := T) h1 h2 hx.nonzero hx.len h3 h5).2 hk (by omega)
  cases ha : atof T fb errno mem str with
  | ok r => exact ⟨r, rfl⟩
  | error e =>
    rw [atof_error, hkr] at ha
    rcases kroshTail_total w1 w2 K with ⟨-, t⟩ | ⟨-, v, st, acc, -, t⟩ <;> · rw [t] at ha; cases ha

/-- "1e10000" is undefined, and so are "1e5.5", "1e.5", "7e1000000000001" and,
by signed overflow, "1000000000e2147483640" and "1e-268435456000". -/
theorem C31_refuted (fb : Fallback) :
    atof .double fb 0 (chars "1e10000" ++ [0]) 0 = .error .badIndex ∧
    atof .double fb 0 (chars "1e5.5" ++ [0]) 0 = .error .badIndex ∧
    atof .double fb 0 (chars "1e.5" ++ [0]) 0 = .error .badIndex ∧
    atof .double fb 0 (chars "7e1000000000001" ++ [0]) 0 = .error .badIndex ∧
    atof .double fb 0 (chars "1000000000e2147483640" ++ [0]) 0 = .error .signedOverflow ∧
    atof .double fb 0 (chars "1e-268435456000" ++ [0]) 0 = .error .signedOverflow := by
  simp only [atof_error]
  decide +kernel

/-- The hypotheses of the positive theorem: "0.5e+0012." followed by a letter. -/
example (fb : Fallback) : ∃ r, atof .float fb 0 (chars "0.5e+0012.x" ++ [0]) 0 = .ok r :=
  C31_small_exponent_defined .float fb 0 _ 0 ⟨11, by decide, by decide⟩ ⟨none, [0], some [5], none⟩ ⟨some false, [0, 0, 1, 2], some [], none⟩
    ⟨⟨'e'.toNat, [120, 0], Or.inl rfl, by decide, Or.inl ⟨by decide, 120, [0], rfl, by decide, by decide⟩⟩, by decide, by decide, by decide⟩
    (by unfold ExpFault; decide) (by decide)

example : WithExponent (chars "1e10000" ++ [0]) 0 ⟨none, [1], none, none⟩ ⟨none, [1, 0, 0, 0, 0], none, none⟩ :=
  ⟨⟨'e'.toNat, [0], Or.inl rfl, by decide, Or.inl ⟨by decide, 0, [], rfl, by decide, by decide⟩⟩, by decide, by decide, by decide⟩

/-! ## C41 -/

/-- **C41.** For a numeral followed by a character that cannot extend it, nothing
else matters: the outcome is that of a call in a memory holding just the numeral
and that character (no NUL is needed), with the end pointer moved; and there the
call completes. -/
theorem C41_ignores_rest (T : FloatType) (fb : Fallback) (errno : Nat) (pre post : List Nat) (n : Numeral) (c : Nat)
    (h : NumeralAt (n.text ++ [c]) 0 n)
    (hfb : fb (pre ++ n.text ++ c :: post) pre.length errno = (fb (n.text ++ [c]) 0 errno).shift pre.length) :
    ∃ r, atof T fb errno (n.text ++ [c]) 0 = .ok r ∧
      atof T fb errno (pre ++ n.text ++ c :: post) pre.length = .ok (r.shift pre.length) := by
  obtain ⟨r, hr, -⟩ := C28_consumes T fb errno _ 0 n h
  refine ⟨r, hr, ?_⟩
  have hh : Holds (n.text ++ [c]) (pre ++ n.text ++ c :: post) pre.length := by
    intro i d hd
    rw [show pre ++ n.text ++ c :: post = pre ++ ((n.text ++ [c]) ++ post) by simp, Nat.add_comm, List.getElem?_append_right (by omega),
      Nat.add_sub_cancel_left, List.getElem?_append_left]
    · exact hd
    · exact (List.getElem?_eq_some_iff.mp hd).1
  have hl := krosh_local hh T 0
  rw [Nat.zero_add] at hl
  unfold atof at hr ⊢
  cases hk : krosh T (n.text ++ [c]) 0 with
  | error e => rw [hk] at hr; cases hr
  | ok k =>
    rw [hk] at hr hl
    rcases hl with hl | hl | hl
    · cases hl
    · cases hl
    · rw [hl]
      simp only [Except.map, ok_bind] at hr ⊢
      by_cases h0 : k.strEnd = 0
      · rw [if_neg (by omega)] at hr
        cases hr
        rw [if_neg (by omega)]; rfl
      · rw [if_pos (by omega)] at hr
        rw [if_pos (by omega)]
        cases ha : k.isAccurate with
        | true => rw [ha] at hr; cases hr; rfl
        | false => rw [ha] at hr; cases hr; rw [hfb]; rfl

/-- "3.5" followed by a letter, with or without more text around. -/
example (T : FloatType) : ∃ r, atof T (fun _ i _ => ⟨7, i + 3, 0⟩) 0 (chars "3.5x") 0 = .ok r ∧
    atof T (fun _ i _ => ⟨7, i + 3, 0⟩) 0 (chars "w = 3.5x1e9") 4 = .ok (r.shift 4) :=
  C41_ignores_rest T _ 0 (chars "w = ") (chars "1e9") ⟨none, [3], some [5], none⟩ 'x'.toNat
    ⟨⟨by decide, by intro e he; cases he⟩, ⟨'x'.toNat, [], by decide, by decide, by decide, by decide⟩, by decide,
      (by intro e he; cases he), (by intro e he; cases he)⟩ (by decide)

end Floaxie
