import Verif.Proof.Grisu

/-! # Grisu with other parameters -/

namespace Floaxie

open FloatType Spec

/-- Least number of fractional bits for which the integral part fits the 32 bits
the code keeps of it (`double`) / that the static assertions allow (`float`). -/
def sLeast : FloatType → Nat
  | float => 13
  | double => 32

/-- Range of `alpha - e`. -/
def yLo : FloatType → Int
  | float => -124
  | double => -1020
def yHi : FloatType → Int
  | float => 164
  | double => 1102

/-- Check for `alpha - e = lo + i`. -/
def kaCheck (T : FloatType) (i : Nat) : Bool :=
  let y := yLo T + i
  let mk := kCompExp y 0
  match T.powE[((T.pow0Offset : Int) + mk).toNat]? with
  | some ec =>
    decide (T.powLo ≤ mk) && decide (mk ≤ T.powHi) &&
      decide (y ≤ ec + T.W) && decide (ec + T.W ≤ y + 3)
  | none => false

theorem kaCheck_float : (List.range 289).all (kaCheck .float) = true := by decide +kernel
theorem kaCheck_double : (List.range 2123).all (kaCheck .double) = true := by decide +kernel

theorem kaCheck_all (T : FloatType) (i : Nat) (h : (i : Int) ≤ yHi T - yLo T) :
    kaCheck T i = true := by
  cases T
  · exact List.all_eq_true.mp kaCheck_float i
      (List.mem_range.mpr (by simp only [yHi, yLo] at h; omega))
  · exact List.all_eq_true.mp kaCheck_double i
      (List.mem_range.mpr (by simp only [yHi, yLo] at h; omega))

theorem kComp_shift (α e : Int) : kCompExp α e = kCompExp (α - e) 0 := by
  unfold kCompExp
  rw [show α - e - 0 - 1 = α - e - 1 by ring]
  by_cases h : e + 1 < α
  · rw [if_pos h, if_pos (by omega)]
  · rw [if_neg h, if_neg (by omega)]

theorem kComp_at (T : FloatType) (α e : Int) (h1 : yLo T ≤ α - e) (h2 : α - e ≤ yHi T) :
    T.powLo ≤ kCompExp α e ∧ kCompExp α e ≤ T.powHi ∧
    ∀ c, cachedPower T (kCompExp α e) = .ok c →
      α ≤ e + c.e + T.W ∧ e + c.e + T.W ≤ α + 3 := by
  rw [kComp_shift]
  obtain ⟨y, hy⟩ : ∃ y, y = α - e := ⟨_, rfl⟩
  rw [← hy] at h1 h2 ⊢
  have hc := kaCheck_all T (y - yLo T).toNat (by omega)
  have he : yLo T + ((y - yLo T).toNat : Int) = y := by omega
  unfold kaCheck at hc
  simp only [he] at hc
  cases hE : T.powE[((T.pow0Offset : Int) + kCompExp y 0).toNat]? with
  | none => rw [hE] at hc; simp at hc
  | some ec =>
    rw [hE] at hc
    simp only [Bool.and_eq_true, decide_eq_true_eq] at hc
    obtain ⟨⟨⟨c1, c2⟩, c3⟩, c4⟩ := hc
    refine ⟨c1, c2, ?_⟩
    intro c hcp
    unfold cachedPower at hcp
    have hoff : -(T.pow0Offset : Int) ≤ kCompExp y 0 := by
      revert c1; cases T <;> simp only [FloatType.powLo, FloatType.pow0Offset] <;> omega
    rw [assertM_true (by simpa using hoff), ok_bind] at hcp
    simp only [hE] at hcp
    split at hcp
    · rename_i h3 h4
      simp only [Option.some.injEq] at h4
      simp only [pure, Except.pure, Except.ok.injEq] at hcp
      rw [← hcp, ← h4]; dsimp only; constructor <;> omega
    · simp at hcp

theorem rel_width (T : FloatType) (f J : Nat) (hJ : 1 ≤ J) (hfp : f < 2 ^ T.p) :
    (2 * f + 1) * 2 ^ J ≤ (2 ^ J + 2 ^ (J + 1 - bshift T f)) * 2 ^ T.p := by
  unfold bshift
  have hp1 : 2 ^ T.p = 2 * 2 ^ (T.p - 1) := by cases T <;> simp [FloatType.p]
  have hp2 : 1 ≤ 2 ^ (T.p - 1) := Nat.one_le_two_pow
  by_cases hf : f = 2 ^ (T.p - 1)
  · rw [if_pos hf]
    have h1 : 2 ^ J = 2 * 2 ^ (J - 1) := by rw [← pow_succ']; congr 1; omega
    rw [show J + 1 - 2 = J - 1 by omega, h1, hp1, hf]
    generalize 2 ^ (T.p - 1) = w at *
    generalize 2 ^ (J - 1) = z
    calc (2 * w + 1) * (2 * z) = (4 * w + 2) * z := by ring
      _ ≤ (6 * w) * z := Nat.mul_le_mul_right _ (by omega)
      _ = _ := by ring
  · rw [if_neg hf]
    simp only [Nat.add_sub_cancel]
    calc (2 * f + 1) * 2 ^ J ≤ (2 * 2 ^ T.p) * 2 ^ J := Nat.mul_le_mul_right _ (by omega)
      _ = _ := by ring

/-- Grisu2 with any `alpha` from the range, on a finite non-zero value. -/
theorem grisu2At_ok (T : FloatType) (α : Int) (hα1 : -(T.W : Int) + 4 ≤ α) (hα2 : α ≤ -(sLeast T : Int) - 3)
    (bits : Nat) (hb : bits < 2 ^ T.W)
    (hfin : absPat T bits < posInf T) (h0 : absPat T bits ≠ 0) :
    ∃ (ds : List (Fin 10)) (k : Int), ds.length ≤ maxSig T ∧
      (∃ h : ds ≠ [], ds.head h ≠ 0 ∧ ds.getLast h ≠ 0) ∧
      Identifies T (digitsVal ds * 10 ^ k) (absPat T bits) ∧
      ∀ (o : Nat) (pre rest : List Nat), pre.length = o → ds.length ≤ rest.length →
        grisu2At α T bits (pre ++ rest) o =
          .ok (pre ++ ds.map digitChar ++ rest.drop ds.length, ds.length, k) := by
  obtain ⟨J, E, hEdef, hJ, hf0, hfp, hJn, hpl1, hpl2, hE1, hE2, hbd⟩ :=
    boundaries_ok T bits hb hfin h0
  have hlow := lower_mid T (absPat T bits) h0
  have hNs := N_succ T (absPat T bits)
  have hNa : N T (absPat T bits) = sigN T (absPat T bits) * ulpN T (absPat T bits) := N_eq _ _
  have hulp : ulpN T (absPat T bits) = 2 ^ (absPat T bits / 2 ^ (T.p - 1) - 1) := rfl
  generalize sigN T (absPat T bits) = f at *
  generalize ha : absPat T bits = a at *
  generalize a / 2 ^ (T.p - 1) - 1 = st at *
  set sh := bshift T f with hshdef
  have hshle : sh ≤ 2 := by rw [hshdef]; unfold bshift; split_ifs <;> omega
  have hshge : 1 ≤ sh := by rw [hshdef]; unfold bshift; split_ifs <;> omega
  obtain ⟨hmk1, hmk2, hwin⟩ := kComp_at T α E (by
      clear * - hα1 hE2; cases T <;> simp only [yLo, bndHi, FloatType.W] at * <;> omega) (by
      clear * - hα2 hE1; cases T <;> simp only [yHi, bndLo, sLeast] at * <;> omega)
  obtain ⟨c, hc0, hc1, hc2, hc3⟩ := cachedPower_ok T (kCompExp α E) hmk1 hmk2
  obtain ⟨hw1, hw2⟩ := hwin c hc0
  generalize hmk : kCompExp α E = mk at *
  set pl : DiyFp := ⟨(2 * f + 1) * 2 ^ J, E⟩ with hpl
  set mi : DiyFp := ⟨(f * 2 ^ sh - 1) * 2 ^ (J + 1 - sh), E⟩ with hmi
  -- the width of the interval
  have hJ7 : 7 ≤ J := by revert hJ; cases T <;> simp only [FloatType.p, FloatType.W] <;> omega
  have hfs : 0 < f * 2 ^ sh := by positivity
  have hmi2 : mi.f + 2 ^ (J + 1 - sh) = 2 * f * 2 ^ J := by
    show (f * 2 ^ sh - 1) * 2 ^ (J + 1 - sh) + 2 ^ (J + 1 - sh) = _
    calc (f * 2 ^ sh - 1) * 2 ^ (J + 1 - sh) + 2 ^ (J + 1 - sh)
        = (f * 2 ^ sh - 1 + 1) * 2 ^ (J + 1 - sh) := by ring
      _ = f * (2 ^ sh * 2 ^ (J + 1 - sh)) := by rw [Nat.sub_add_cancel hfs]; ring
      _ = f * 2 ^ (J + 1) := by rw [← pow_add, show sh + (J + 1 - sh) = J + 1 by omega]
      _ = _ := by ring
  have hplmi : mi.f + (2 ^ J + 2 ^ (J + 1 - sh)) = pl.f := by
    show _ = (2 * f + 1) * 2 ^ J
    rw [add_comm (2 ^ J), ← add_assoc, hmi2]; ring
  have hmlt : mi.f < 2 ^ T.W := lt_of_le_of_lt (Nat.le.intro hplmi) hpl2
  have hplt : pl.f < 2 ^ T.W := hpl2
  have hp1 := mul_f T pl c hplt hc2
  have hm1 := mul_f T mi c hmlt hc2
  have herrp := mul_err T pl c mk hplt hc2 hc3
  have herrm := mul_err T mi c mk hmlt hc2 hc3
  have hep : (pl.mul T.W c).e = E + c.e + T.W := rfl
  have hem : (mi.mul T.W c).e = E + c.e + T.W := rfl
  obtain ⟨s, hs⟩ : ∃ s : Nat, E + c.e + T.W = -(s : Int) := by
    refine ⟨(-(E + c.e + T.W)).toNat, ?_⟩
    omega
  rw [hep, hs] at herrp
  rw [hem, hs] at herrm
  have hsr : sLeast T ≤ s ∧ s ≤ T.W - 4 := by
    have : 4 ≤ T.W := by cases T <;> simp [FloatType.W]
    omega
  have hW1 : 2 ^ T.W = 2 * 2 ^ (T.W - 1) := by cases T <;> simp [FloatType.W]
  have hW2 : 2 ^ (T.W - 1) = 2 * 2 ^ (T.W - 2) := by cases T <;> simp [FloatType.W]
  have hWpos : 0 < 2 ^ T.W := by positivity
  -- bounds on the products
  have hdmp := Nat.div_add_mod (pl.f * c.f + 2 ^ (T.W - 1)) (2 ^ T.W)
  have hmlp := Nat.mod_lt (pl.f * c.f + 2 ^ (T.W - 1)) hWpos
  have hdmm := Nat.div_add_mod (mi.f * c.f + 2 ^ (T.W - 1)) (2 ^ T.W)
  have hmlm := Nat.mod_lt (mi.f * c.f + 2 ^ (T.W - 1)) hWpos
  rw [← hp1] at hdmp
  rw [← hm1] at hdmm
  have hPge : 2 ^ (T.W - 2) ≤ (pl.mul T.W c).f := by
    have h1 : 2 ^ (T.W - 1) * 2 ^ (T.W - 1) ≤ pl.f * c.f := Nat.mul_le_mul hpl1 hc1
    rw [hp1, Nat.le_div_iff_mul_le hWpos]
    have : 2 ^ (T.W - 2) * 2 ^ T.W = 2 ^ (T.W - 1) * 2 ^ (T.W - 1) := by
      rw [hW1, hW2]; ring
    omega
  have hPlt : (pl.mul T.W c).f < 2 ^ T.W - 1 := by
    rw [hp1, Nat.div_lt_iff_lt_mul hWpos]
    have h1 : pl.f * c.f ≤ (2 ^ T.W - 1) * (2 ^ T.W - 1) := Nat.mul_le_mul (by omega) (by omega)
    have h2 : (2 ^ T.W - 1) * (2 ^ T.W - 1) + (2 ^ T.W - 1) = (2 ^ T.W - 1) * 2 ^ T.W := by
      conv_rhs => rw [show 2 ^ T.W = (2 ^ T.W - 1) + 1 by omega]
      rw [mul_add, mul_one]; rfl
    have h3 : 1 ≤ 2 ^ (T.W - 2) := Nat.one_le_two_pow
    omega
  have hprod : pl.f * c.f = mi.f * c.f + (2 ^ J + 2 ^ (J + 1 - sh)) * c.f := by
    rw [← hplmi]; ring
  have hMle : (mi.mul T.W c).f ≤ (pl.mul T.W c).f := by
    rw [hm1, hp1]; apply Nat.div_le_div_right
    rw [hprod]; omega
  have hgap : (2 ^ J + 2 ^ (J + 1 - sh)) * c.f <
      ((pl.mul T.W c).f - (mi.mul T.W c).f + 1) * 2 ^ T.W := by
    rw [Nat.add_mul ((pl.mul T.W c).f - (mi.mul T.W c).f), Nat.sub_mul, one_mul]
    have : (mi.mul T.W c).f * 2 ^ T.W ≤ (pl.mul T.W c).f * 2 ^ T.W := Nat.mul_le_mul_right _ hMle
    rw [mul_comm] at hdmp hdmm
    omega
  have hPrel : (pl.mul T.W c).f * 2 ^ T.W ≤ pl.f * c.f + 2 ^ (T.W - 1) := by
    rw [mul_comm]; omega
  -- the interval after ++ and --
  set P := (pl.mul T.W c).f with hP
  set Q := (mi.mul T.W c).f with hQ
  have hgapJ : ∀ n : Nat, 2 ^ n ≤ 2 ^ J + 2 ^ (J + 1 - sh) → n ≥ 1 → 2 ^ (n - 1) < P - Q + 1 := by
    intro n hn hn1
    have h1 : 2 ^ n * 2 ^ (T.W - 1) ≤ (2 ^ J + 2 ^ (J + 1 - sh)) * c.f := Nat.mul_le_mul hn hc1
    have h2 : 2 ^ n * 2 ^ (T.W - 1) = 2 ^ (n - 1) * 2 ^ T.W := by
      rw [hW1]
      obtain ⟨n', rfl⟩ : ∃ n', n = n' + 1 := ⟨n - 1, by omega⟩
      rw [pow_succ]; simp; ring
    rw [h2] at h1
    exact Nat.lt_of_mul_lt_mul_right (lt_of_le_of_lt h1 hgap)
  have hgap3 : 3 * 2 ^ (J - 2) < P - Q + 1 := by
    have hn : 3 * 2 ^ (J - 1) ≤ 2 ^ J + 2 ^ (J + 1 - sh) := by
      have h1 : 2 ^ J = 2 * 2 ^ (J - 1) := by rw [← pow_succ']; congr 1; omega
      have h2 : 2 ^ (J - 1) ≤ 2 ^ (J + 1 - sh) := Nat.pow_le_pow_right (by norm_num) (by omega)
      omega
    have h1 : 3 * 2 ^ (J - 1) * 2 ^ (T.W - 1) ≤ (2 ^ J + 2 ^ (J + 1 - sh)) * c.f :=
      Nat.mul_le_mul hn hc1
    have h2 : 3 * 2 ^ (J - 1) * 2 ^ (T.W - 1) = 3 * 2 ^ (J - 2) * 2 ^ T.W := by
      rw [hW1, show J - 1 = (J - 2) + 1 by omega, pow_succ]; ring
    rw [h2] at h1
    exact Nat.lt_of_mul_lt_mul_right (lt_of_le_of_lt h1 hgap)
  have hMp : (pl.mul T.W c).dec T.W = ⟨P - 1, -(s : Int)⟩ := by
    unfold DiyFp.dec
    have : 1 < P := by
      have : 2 ^ 1 ≤ 2 ^ (T.W - 2) := Nat.pow_le_pow_right (by norm_num)
        (by cases T <;> simp [FloatType.W])
      omega
    rw [if_pos this]; simp only [hep, hs, hP]
  have hMm : (mi.mul T.W c).inc T.W = ⟨Q + 1, -(s : Int)⟩ := by
    unfold DiyFp.inc
    rw [if_pos (by omega), Nat.mod_eq_of_lt (by omega)]; simp only [hem, hs, hQ]
  have hJ96 : 96 ≤ 3 * 2 ^ (J - 2) := by
    have : 2 ^ 5 ≤ 2 ^ (J - 2) := Nat.pow_le_pow_right (by norm_num) (by omega)
    omega
  -- number of integral digits
  have h2s : 0 < 2 ^ s := by positivity
  have hPs : 2 ^ s ≤ P - 1 := by
    have h1 : 2 ^ s + 1 ≤ 2 ^ (T.W - 2) := by
      have : 2 ^ s ≤ 2 ^ (T.W - 4) := Nat.pow_le_pow_right (by norm_num) hsr.2
      have : 2 ^ (T.W - 4) + 1 ≤ 2 ^ (T.W - 2) := by cases T <;> simp [FloatType.W]
      omega
    omega
  set κ := Nat.log 10 ((P - 1) / 2 ^ s) with hκ
  have hp1ne : (P - 1) / 2 ^ s ≠ 0 := by
    have : 1 ≤ (P - 1) / 2 ^ s := by rw [Nat.le_div_iff_mul_le h2s, one_mul]; exact hPs
    omega
  have hκ1 : 10 ^ κ * 2 ^ s ≤ P - 1 := by
    have := Nat.pow_log_le_self 10 hp1ne
    rwa [Nat.le_div_iff_mul_le h2s] at this
  have hκ2 : P - 1 < 10 ^ (κ + 1) * 2 ^ s := by
    have := Nat.lt_pow_succ_log_self (by norm_num : 1 < 10) ((P - 1) / 2 ^ s)
    rwa [Nat.div_lt_iff_lt_mul h2s] at this
  have hκb : κ < 10 ∧ κ + 1 ≤ maxSig T := by
    have h1 : 10 ^ κ * 2 ^ s < 2 ^ T.W := by omega
    have h2 : 10 ^ κ * 2 ^ sLeast T < 2 ^ T.W :=
      lt_of_le_of_lt (Nat.mul_le_mul_left _ (Nat.pow_le_pow_right (by norm_num) hsr.1)) h1
    clear * - h2
    cases T
    · have hk : κ ≤ 5 := by
        by_contra hne
        have : 10 ^ 6 ≤ 10 ^ κ := Nat.pow_le_pow_right (by norm_num) (by omega)
        simp only [FloatType.W, sLeast] at h2; norm_num at h2 this; omega
      simp only [maxSig]; omega
    · have hk : κ ≤ 9 := by
        by_contra hne
        have : 10 ^ 10 ≤ 10 ^ κ := Nat.pow_le_pow_right (by norm_num) (by omega)
        simp only [FloatType.W, sLeast] at h2; norm_num at h2 this; omega
      simp only [maxSig]; omega
  -- number of fractional digits
  have hm : ∃ m : Nat, κ + 1 + m = maxSig T ∧ 2 ^ s ≤ (P - 1 - (Q + 1)) * 10 ^ m := by
    have hdel : P - 1 - (Q + 1) + 3 = P - Q + 1 := by omega
    have hD93 : 93 ≤ P - 1 - (Q + 1) := by omega
    generalize hD : P - 1 - (Q + 1) = D at *
    -- relative width of the interval
    have hrel : pl.f ≤ (2 ^ J + 2 ^ (J + 1 - sh)) * 2 ^ T.p := rel_width T f J (by omega) hfp
    have h2 : P ≤ (D + 3) * 2 ^ T.p := by
      by_contra hne
      push Not at hne
      have h3 : ((D + 3) * 2 ^ T.p + 1) * 2 ^ T.W ≤ P * 2 ^ T.W := Nat.mul_le_mul_right _ hne
      have h4 : pl.f * c.f ≤ (2 ^ J + 2 ^ (J + 1 - sh)) * c.f * 2 ^ T.p := by
        calc pl.f * c.f ≤ (2 ^ J + 2 ^ (J + 1 - sh)) * 2 ^ T.p * c.f := Nat.mul_le_mul_right _ hrel
          _ = _ := by ring
      have h5 : (2 ^ J + 2 ^ (J + 1 - sh)) * c.f * 2 ^ T.p ≤
          (P - Q + 1) * 2 ^ T.W * 2 ^ T.p := Nat.mul_le_mul_right _ hgap.le
      rw [← hdel] at h5
      have h6 : ((D + 3) * 2 ^ T.p + 1) * 2 ^ T.W =
        (D + 3) * 2 ^ T.W * 2 ^ T.p + 2 ^ T.W := by ring
      omega
    refine ⟨maxSig T - 1 - κ, by omega, ?_⟩
    obtain ⟨m, hm⟩ : ∃ m, m = maxSig T - 1 - κ := ⟨_, rfl⟩
    rw [← hm]
    have h10 : 10 ^ (maxSig T - 1) = 10 ^ κ * 10 ^ m := by rw [← pow_add]; congr 1; omega
    have hk : (D + 3) * 2 ^ T.p ≤ D * 10 ^ (maxSig T - 1) := by
      clear * - hD93
      cases T <;> simp only [FloatType.p, maxSig] <;> omega
    have h11 : 10 ^ κ * 2 ^ s ≤ D * (10 ^ κ * 10 ^ m) := by
      rw [← h10]; omega
    have h12 : 10 ^ κ * 2 ^ s ≤ 10 ^ κ * (D * 10 ^ m) := by
      calc _ ≤ _ := h11
        _ = _ := by ring
    exact Nat.le_of_mul_le_mul_left h12 (by positivity)
  obtain ⟨m, hm2, hm3⟩ := hm
  obtain ⟨ds, k, d1, d2, d3, d4, d5, d6, d8, d7⟩ := digitGen_ok T ⟨P - 1, -(s : Int)⟩ ⟨Q + 1, -(s : Int)⟩
    s κ m rfl rfl (by cases T <;> simp only [FloatType.W] at * <;> omega)
    (by cases T <;> simp only [FloatType.W, sLeast] at * <;> omega) (by simp only; omega) (by simp only; omega)
    hκ1 hκ2 hκb.1 hm3
    (by have : maxSig T ≤ T.W := by cases T <;> simp [maxSig, FloatType.W]
        omega) (by cases T <;> simp [FloatType.W])
  simp only at d3 d4 d8
  refine ⟨ds, -mk + k, by omega, d2, ?_, ?_⟩
  · -- identification
    have hP1 : ((P - 1 : Nat) : ℚ) = P - 1 := by
      push_cast [Nat.cast_sub (show 1 ≤ P by omega)]; ring
    have hQ1 : ((Q + 1 : Nat) : ℚ) = Q + 1 := by push_cast; ring
    rw [hP1] at d4
    rw [hQ1] at d3
    have hus : (0 : ℚ) < 2 ^ (-(s : Int)) := by positivity
    have hss : (2 : ℚ) ^ s * 2 ^ (-(s : Int)) = 1 := by
      rw [zpow_neg, zpow_natCast]; exact mul_inv_cancel₀ (by positivity)
    have h10 : (0 : ℚ) < 10 ^ mk := by positivity
    have hx : (digitsVal ds : ℚ) * 10 ^ (-mk + k) * 10 ^ mk = digitsVal ds * 10 ^ k := by
      rw [mul_assoc, ← zpow_add₀ (by norm_num)]; congr 2; ring
    set x : ℚ := digitsVal ds * 10 ^ (-mk + k) with hxdef
    rw [abs_lt] at herrp herrm
    have hd3 : ((Q : ℚ) + 1) * 2 ^ (-(s : Int)) ≤ x * 10 ^ mk := by
      have := mul_le_mul_of_nonneg_right d3 hus.le
      rw [hx]
      calc _ ≤ _ := this
        _ = _ := by rw [mul_assoc, hss, mul_one]
    have hd4 : x * 10 ^ mk ≤ ((P : ℚ) - 1) * 2 ^ (-(s : Int)) := by
      have := mul_le_mul_of_nonneg_right d4 hus.le
      rw [hx]
      calc _ = _ := by rw [mul_assoc, hss, mul_one]
        _ ≤ _ := this
    have hup : x < pl.f * 2 ^ E := by
      have : x * 10 ^ mk < pl.f * 2 ^ E * 10 ^ mk := by
        have h1 := herrp.2
        have h2 : (pl.e : Int) = E := rfl
        rw [h2] at h1
        linarith
      exact lt_of_mul_lt_mul_right this h10.le
    have hdn : (mi.f : ℚ) * 2 ^ E < x := by
      have : (mi.f : ℚ) * 2 ^ E * 10 ^ mk < x * 10 ^ mk := by
        have h1 := herrm.1
        have h2 : (mi.e : Int) = E := rfl
        rw [h2] at h1
        linarith
      exact lt_of_mul_lt_mul_right this h10.le
    -- in units of the least subnormal
    have hem := emin_pos T
    have hpl' : (pl.f : ℚ) * 2 ^ E = (2 * f + 1) * 2 ^ st / 2 * 2 ^ emin T := by
      have : (pl.f : ℚ) = (2 * f + 1) * 2 ^ J := by rw [hpl]; push_cast; ring
      rw [this, hEdef, zpow_sub₀ (by norm_num), zpow_sub₀ (by norm_num), zpow_add₀ (by norm_num),
        zpow_natCast, zpow_natCast, zpow_one]
      have : (2 : ℚ) ^ J ≠ 0 := by positivity
      field_simp
    have hmi' : (mi.f : ℚ) * 2 ^ E = (f * 2 ^ sh - 1) * (2 ^ st * 2 / 2 ^ sh) / 2 * 2 ^ emin T := by
      have h1 : (mi.f : ℚ) = (f * 2 ^ sh - 1) * (2 ^ J * 2 / 2 ^ sh) := by
        rw [hmi]; push_cast [Nat.cast_sub (show 1 ≤ f * 2 ^ sh by omega)]
        rw [eq_comm]
        congr 1
        rw [div_eq_iff (by positivity), ← pow_add, show J + 1 - sh + sh = J + 1 by omega]; ring
      rw [h1, hEdef, zpow_sub₀ (by norm_num), zpow_sub₀ (by norm_num), zpow_add₀ (by norm_num),
        zpow_natCast, zpow_natCast, zpow_one]
      have : (2 : ℚ) ^ J ≠ 0 := by positivity
      field_simp
    have hX : x = (x / 2 ^ emin T) * 2 ^ emin T := by field_simp
    rw [hX]
    rw [hpl'] at hup
    rw [hmi'] at hdn
    rw [hX] at hup hdn
    have hup2 := lt_of_mul_lt_mul_right hup hem.le
    have hdn2 := lt_of_mul_lt_mul_right hdn hem.le
    apply closest_pos hfin
    · have : (0 : ℚ) ≤ x := by positivity
      positivity
    · right
      calc ((N T (a - 1) : ℚ) + N T a) ≤ _ := hlow
        _ < _ := by linarith
    · rw [hNs, hNa, hulp]
      push_cast
      linarith
  · intro o pre rest hpre hrest
    unfold grisu2At
    rw [hbd, ok_bind]
    have hple : pl.e = E := rfl
    simp only [hple, kComp_double, hmk]
    rw [hc0, ok_bind]
    rw [hMp, hMm, d7 _ o pre rest hpre hrest]

end Floaxie
