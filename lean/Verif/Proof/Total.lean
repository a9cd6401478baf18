import Verif.Proof.Unique
import Verif.Proof.Local
import Verif.Spec.Exponent

/-! # The parser on every NUL-terminated string -/

namespace Floaxie

open Spec FloatType

theorem Nul.mono {mem : List Nat} {i j : Nat} (h : Nul mem j) (hij : i ≤ j) : Nul mem i := by
  obtain ⟨z, h1, h2⟩ := h
  exact ⟨z, by omega, h2⟩

/-- Non-zero characters are passed over. -/
theorem Nul.skip {mem : List Nat} : ∀ {t : List Nat} {i : Nat}, Nul mem i → mem.drop i = t ++ mem.drop (i + t.length) →
    (∀ c ∈ t, c ≠ 0) → Nul mem (i + t.length)
  | [], i, h, _, _ => by simpa using h
  | c :: t, i, h, ht, h0 => by
    have hg : mem[i]? = some c := get_of_drop (by rw [ht]; rfl)
    have h1 := h.next hg (h0 c (by simp))
    have h2 : mem.drop (i + 1) = t ++ mem.drop (i + 1 + t.length) := by
      have := drop_of_get hg
      rw [ht, List.cons_append, List.cons.injEq] at this
      rw [← this.2]; congr 2; simp; omega
    have := Nul.skip h1 h2 (fun x hx => h0 x (by simp [hx]))
    rwa [show i + (c :: t).length = i + 1 + t.length by simp; omega]

theorem digitChar_ne_zero (d : Fin 10) : digitChar d ≠ 0 := by
  unfold digitChar
  have : '0'.toNat = 48 := by decide
  omega

theorem scanText_ne_zero (n : Numeral) : ∀ c ∈ scanText n, c ≠ 0 := by
  intro c hc
  have h1 : ∀ ds : List (Fin 10), c ∈ ds.map digitChar → c ≠ 0 := by
    intro ds h
    obtain ⟨d, -, rfl⟩ := List.mem_map.mp h
    exact digitChar_ne_zero d
  unfold scanText Numeral.mantText at hc
  rw [List.mem_append, List.mem_append] at hc
  rcases hc with hc | hc | hc
  · cases hs : n.sign with
    | none => rw [hs] at hc; simp [signText] at hc
    | some b => rw [hs] at hc; cases b <;> · simp [signText] at hc; subst hc; decide
  · exact h1 _ hc
  · cases hf : n.frac with
    | none => rw [hf] at hc; simp at hc
    | some ds =>
      rw [hf] at hc
      dsimp only at hc
      rcases List.mem_cons.mp hc with rfl | hc
      · decide
      · exact h1 _ hc

/-- Where `parse_digits` stops. -/
theorem DigitsResult.nul {T : FloatType} {mem : List Nat} {str : Nat} {r : DigitParseResult} (h : Nul mem str)
    (hr : DigitsResult T mem str r) : str ≤ r.strEnd ∧ Nul mem r.strEnd := by
  cases hr with
  | num n P K frac c h1 h2 h3 h4 h5 h6 => exact ⟨by simp, h.skip h3 (scanText_ne_zero n)⟩
  | limit n P K frac h1 h2 h3 h4 =>
    refine ⟨by simp, ?_⟩
    rw [← h2] at h3
    have := h.skip h3 (scanText_ne_zero n)
    rw [h2] at this
    exact this.mono (by simp)
  | word s isNan eaten c h1 h2 h3 h4 h5 => exact ⟨by dsimp only; omega, h5⟩

/-- `parse_mantissa` never fails on a NUL-terminated string. -/
theorem parseMantissa_total {T : FloatType} {mem : List Nat} {str : Nat} (h : Nul mem str) :
    ∃ dp mp, DigitsResult T mem str dp ∧ parseMantissa T mem str = .ok mp ∧ mp.strEnd = dp.strEnd ∧ mp.special = dp.special ∧
      mp.sign = dp.sign ∧ (mp.special = .no ∧ mp.value.f ≠ 0 →
        dp.value ≠ 0 ∧ mp.K = dp.K ∧ 2 ^ (T.W - 1) ≤ mp.value.f ∧ mp.value.f < 2 ^ T.W ∧ -2050 ≤ mp.K ∧ mp.K ≤ 2050) ∧
      (dp.value = 0 → mp.value.f = 0) := by
  obtain ⟨dp, d1, d2⟩ := parseDigits_total (T := T) h
  unfold parseMantissa
  rw [d1, ok_bind]
  by_cases hs : dp.special = .no
  · rw [if_pos hs]
    by_cases hP : dp.value = 0
    · rw [if_neg (by simpa using hP)]
      exact ⟨dp, _, d2, rfl, rfl, rfl, rfl, fun h => absurd hP h.2, fun _ => hP⟩
    · rw [if_pos hP]
      have key : ∀ (n : Numeral), Reads T.digits10 n dp.value dp.K dp.frac → (scanText n).length ≤ 2050 →
          ∃ mp, (do
            let w ← adjustMantissa T dp.value dp.frac
            pure ({ value := w, K := dp.K, strEnd := dp.strEnd, special := dp.special, sign := dp.sign } : MantissaParseResult)) = .ok mp ∧
            mp.strEnd = dp.strEnd ∧ mp.special = dp.special ∧ mp.sign = dp.sign ∧ (mp.special = .no ∧ mp.value.f ≠ 0 →
              dp.value ≠ 0 ∧ mp.K = dp.K ∧ 2 ^ (T.W - 1) ≤ mp.value.f ∧ mp.value.f < 2 ^ T.W ∧ -2050 ≤ mp.K ∧ mp.K ≤ 2050) ∧
            (dp.value = 0 → mp.value.f = 0) := by
        intro n hr hl
        obtain ⟨w, Y, w1, w2, w3, -⟩ := mantissa_ok hr hP
        have hK : -2050 ≤ dp.K ∧ dp.K ≤ 2050 := by
          have hlen := scanText_length n
          have hnf : n.fracDigits.length ≤ (allDigits n).length := by simp [allDigits]
          rcases hr with ⟨-, h, -⟩ | ⟨z, ds, tail, g1, -, -, -, hK, -⟩
          · exact absurd h hP
          · have : tail.length ≤ (allDigits n).length := by rw [g1]; simp; omega
            omega
        rw [w1, ok_bind]
        exact ⟨_, rfl, rfl, rfl, rfl, fun _ => ⟨hP, rfl, w2, w3, hK⟩, fun h => absurd h hP⟩
      have fin : ∀ (n : Numeral), Reads T.digits10 n dp.value dp.K dp.frac → (scanText n).length ≤ 2050 → DigitsResult T mem str dp →
          ∃ dp' mp, DigitsResult T mem str dp' ∧ (do
            let w ← adjustMantissa T dp.value dp.frac
            pure ({ value := w, K := dp.K, strEnd := dp.strEnd, special := dp.special, sign := dp.sign } : MantissaParseResult)) = .ok mp ∧
            mp.strEnd = dp'.strEnd ∧ mp.special = dp'.special ∧ mp.sign = dp'.sign ∧ (mp.special = .no ∧ mp.value.f ≠ 0 →
              dp'.value ≠ 0 ∧ mp.K = dp'.K ∧ 2 ^ (T.W - 1) ≤ mp.value.f ∧ mp.value.f < 2 ^ T.W ∧ -2050 ≤ mp.K ∧ mp.K ≤ 2050) ∧
            (dp'.value = 0 → mp.value.f = 0) := by
        intro n hr hl hd
        obtain ⟨mp, hmp⟩ := key n hr hl
        exact ⟨dp, mp, hd, hmp⟩
      cases d2 with
      | num n P K frac c h1 h2 h3 h4 h5 h6 => exact fin n h6 (by omega) (.num n P K frac c h1 h2 h3 h4 h5 h6)
      | limit n P K frac h1 h2 h3 h4 => exact fin n h4 (by omega) (.limit n P K frac h1 h2 h3 h4)
      | word s isNan eaten c h1 h2 h3 h4 h5 => exact absurd rfl hP
  · rw [if_neg hs]
    exact ⟨dp, _, d2, rfl, rfl, rfl, rfl, fun h => absurd rfl h.2, fun _ => rfl⟩

/-- `parse_exponent` on a NUL-terminated string. -/
theorem parseExponent_total {mem : List Nat} {p : Nat} (h : Nul mem p) :
    (∃ ep, parseExponent mem p = .ok ep ∧ p ≤ ep.strEnd ∧ Nul mem ep.strEnd ∧
      (mem[p]? ≠ some 'e'.toNat → mem[p]? ≠ some 'E'.toNat → ep = ⟨0, p⟩) ∧ -(2 ^ 31) ≤ ep.value ∧ ep.value < 2 ^ 31) ∨
    ((mem[p]? = some 'e'.toNat ∨ mem[p]? = some 'E'.toNat) ∧
      (parseExponent mem p = .error .badIndex ∨ parseExponent mem p = .error .signedOverflow)) := by
  obtain ⟨c, hc⟩ := h.get
  unfold parseExponent
  rw [rd_of hc, ok_bind]
  by_cases he : c ≠ 'e'.toNat ∧ c ≠ 'E'.toNat
  · rw [if_pos he]
    exact Or.inl ⟨_, rfl, le_rfl, h, fun _ _ => rfl, by norm_num, by norm_num⟩
  · rw [if_neg he]
    have hcc : c = 'e'.toNat ∨ c = 'E'.toNat := by tauto
    have hc' : mem[p]? = some 'e'.toNat ∨ mem[p]? = some 'E'.toNat := by rw [hc]; simpa using hcc
    have h1 := h.next hc (by rintro rfl; revert hcc; decide)
    obtain ⟨dp, d1, d2⟩ := parseDigits_total (T := .float) h1
    have d3 := d2.nul h1
    rw [d1, ok_bind]
    unfold seqPow
    by_cases h2 : (dp.K % 2 ^ 64).toNat ≤ exponentDecimalDigits
    · rw [if_pos h2, ok_bind]
      have hb : ∀ x : Nat, -(2 ^ 31) ≤ toInt32 x ∧ toInt32 x < 2 ^ 31 := by
        intro x; unfold toInt32; dsimp only
        have : x % 2 ^ 32 < 2 ^ 32 := Nat.mod_lt _ (by norm_num)
        split_ifs <;> omega
      dsimp only
      generalize hv : toInt32 (dp.value * (10 ^ (dp.K % 2 ^ 64).toNat % 2 ^ 32)) = v
      have hvb := hb (dp.value * (10 ^ (dp.K % 2 ^ 64).toNat % 2 ^ 32))
      rw [hv] at hvb
      cases dp.sign
      · simp only [Bool.not_false, if_true]
        unfold chkInt
        split_ifs with h3
        · rw [ok_bind]
          refine Or.inl ⟨_, rfl, by dsimp only; omega, d3.2, fun a b => ?_, h3.1, h3.2⟩
          rcases hc' with hc' | hc'
          · exact absurd hc' a
          · exact absurd hc' b
        · exact Or.inr ⟨hc', Or.inr rfl⟩
      · simp only [Bool.not_true, Bool.false_eq_true, if_false]
        refine Or.inl ⟨_, rfl, by dsimp only; omega, d3.2, fun a b => ?_, hvb.1, hvb.2⟩
        rcases hc' with hc' | hc'
        · exact absurd hc' a
        · exact absurd hc' b
    · rw [if_neg h2]
      exact Or.inr ⟨hc', Or.inl rfl⟩

/-- The last character of a scanned text that is cut off by the limit. -/
theorem limit_char {mem : List Nat} {str : Nat} {n : Numeral} (hl : (scanText n).length = 2050)
    (hm : mem.drop str = scanText n ++ mem.drop (str + 2050)) :
    ∃ c, mem[str + 2049]? = some c ∧ c ≠ 'e'.toNat ∧ c ≠ 'E'.toNat := by
  have hi : 2049 < (scanText n).length := by omega
  refine ⟨(scanText n)[2049], ?_, ?_⟩
  · have : (mem.drop str)[2049]? = some (scanText n)[2049] := by
      rw [hm, List.getElem?_append_left hi, List.getElem?_eq_getElem hi]
    rwa [List.getElem?_drop] at this
  · have hmem : (scanText n)[2049] ∈ scanText n := List.getElem_mem hi
    generalize (scanText n)[2049] = c at hmem
    have h1 : ∀ ds : List (Fin 10), c ∈ ds.map digitChar → c ≠ 'e'.toNat ∧ c ≠ 'E'.toNat := by
      intro ds h
      obtain ⟨d, -, rfl⟩ := List.mem_map.mp h
      have := d.isLt
      unfold digitChar
      rw [show '0'.toNat = 48 by decide, show 'e'.toNat = 101 by decide, show 'E'.toNat = 69 by decide]
      omega
    unfold scanText Numeral.mantText at hmem
    rw [List.mem_append, List.mem_append] at hmem
    rcases hmem with hc | hc | hc
    · cases hs : n.sign with
      | none => rw [hs] at hc; simp [signText] at hc
      | some b => rw [hs] at hc; cases b <;> · simp [signText] at hc; subst hc; decide
    · exact h1 _ hc
    · cases hf : n.frac with
      | none => rw [hf] at hc; simp at hc
      | some ds =>
        rw [hf] at hc
        dsimp only at hc
        rcases List.mem_cons.mp hc with rfl | hc
        · decide
        · exact h1 _ hc

/-- `krosh` on a NUL-terminated string: defined and inside the string, or
undefined behaviour in the exponent part of a non-zero numeral. -/
theorem krosh_total {T : FloatType} {mem : List Nat} {str : Nat} (h : Nul mem str) :
    (∃ r, krosh T mem str = .ok r ∧ str ≤ r.strEnd ∧ Nul mem r.strEnd) ∨
    ((∃ n c R, n.exp = none ∧ mem.drop str = scanText n ++ c :: R ∧ (c = 'e'.toNat ∨ c = 'E'.toNat) ∧
        digitsVal (allDigits n) ≠ 0 ∧ (scanText n).length ≤ 2049) ∧
      (krosh T mem str = .error .badIndex ∨ krosh T mem str = .error .signedOverflow)) := by
  obtain ⟨dp, mp, m1, m2, m3, m4, m5, m6, m7⟩ := parseMantissa_total (T := T) h
  have hn := m1.nul h
  rw [← m3] at hn
  unfold krosh
  rw [m2, ok_bind]
  by_cases hs : mp.special = .no ∧ mp.value.f ≠ 0
  · rw [if_pos hs]
    obtain ⟨hv, -, f1, f2, k1, k2⟩ := m6 hs
    have struct : (mem[mp.strEnd]? = some 'e'.toNat ∨ mem[mp.strEnd]? = some 'E'.toNat) →
        ∃ n c R, n.exp = none ∧ mem.drop str = scanText n ++ c :: R ∧ (c = 'e'.toNat ∨ c = 'E'.toNat) ∧
        digitsVal (allDigits n) ≠ 0 ∧ (scanText n).length ≤ 2049 := by
      intro he
      rw [m3] at he
      cases m1 with
      | num n P K frac c h1 h2 h3 h4 h5 h6 =>
        dsimp only at he hv
        rw [h4] at he
        refine ⟨n, c, mem.drop (str + (scanText n).length + 1), h1, ?_, by simpa using he, ?_, h2⟩
        · rw [← drop_of_get h4, ← h3]
        · intro h0
          apply hv
          rw [h6.zero_iff]
          unfold mantVal; rw [h0]; simp
      | limit n P K frac h1 h2 h3 h4 =>
        dsimp only at he
        obtain ⟨c, c1, c2, c3⟩ := limit_char h2 h3
        rw [c1] at he
        simp only [Option.some.injEq] at he
        rcases he with he | he
        · exact absurd he c2
        · exact absurd he c3
      | word s isNan eaten c h1 h2 h3 h4 h5 => exact absurd rfl hv
    rcases parseExponent_total hn.2 with ⟨ep, e1, e2, e3, e4, e5, e6⟩ | ⟨he, e1⟩
    · rw [e1, ok_bind]
      by_cases hK : -(2 ^ 31) ≤ mp.K + ep.value ∧ mp.K + ep.value < 2 ^ 31
      · left
        have := krosh_eq_tail m2 hs.1 hs.2 e1 hK
        unfold krosh at this
        rw [m2, ok_bind, if_pos hs, e1, ok_bind] at this
        rw [this]
        rcases kroshTail_total f1 f2 (mp.K + ep.value) with ⟨-, t⟩ | ⟨-, v, st, acc, -, t⟩
        · exact ⟨_, t _ _, by dsimp only; omega, e3⟩
        · exact ⟨_, t _ _, by dsimp only; omega, e3⟩
      · right
        refine ⟨struct ?_, Or.inr ?_⟩
        · by_contra hc
          have := e4 (fun h => hc (Or.inl h)) (fun h => hc (Or.inr h))
          rw [this] at hK
          apply hK; dsimp only; omega
        · unfold chkInt
          rw [if_neg hK]; rfl
    · right
      refine ⟨struct he, ?_⟩
      rcases e1 with e1 | e1
      · rw [e1]; exact Or.inl rfl
      · rw [e1]; exact Or.inr rfl
  · rw [if_neg hs]
    exact Or.inl ⟨_, rfl, hn.1, hn.2⟩

theorem digitsVal_ne_zero_of {l : List (Fin 10)} (h : ¬ ∀ d ∈ l, d = 0) : digitsVal l ≠ 0 :=
  fun h0 => h (digitsVal_eq_zero h0)

/-- `seq_pow` in `parse_exponent` is given an index outside its table exactly
when the exponent digits are `ExpFault`. -/
theorem expFault_iff {x : Numeral} {P : Nat} {K : Int} {frac : Nat} (h : Reads 9 x P K frac) :
    ¬ (0 ≤ K ∧ K ≤ 3) ↔ ExpFault x.int x.fracDigits := by
  unfold ExpFault
  have hsplit : digitsVal (allDigits x) = digitsVal x.int * 10 ^ x.fracDigits.length + digitsVal x.fracDigits := by
    unfold allDigits; rw [digitsVal_append]
  have hF := digitsVal_lt x.fracDigits
  rcases h with ⟨h1, rfl, rfl, -⟩ | ⟨z, ds, tail, h1, ⟨d, ds', hds, hd⟩, h3, hP, hK, h7⟩
  · have h2 := zeros_append.mp h1
    rw [if_pos h2.2, digitsVal_all_zero h2.1]
    norm_num
  · rw [h1, digitsVal_append, digitsVal_replicate_zero, zero_mul, zero_add, digitsVal_append, ← hP] at hsplit
    have hτ := digitsVal_lt tail
    have hP9 : P < 10 ^ 9 := by
      rw [hP]; exact lt_of_lt_of_le (digitsVal_lt ds) (Nat.pow_le_pow_right (by norm_num) h3)
    have hP0 : 0 < P := by
      rw [hP, hds]; have := digitsVal_head (ds := ds') hd
      have : 0 < 10 ^ ds'.length := by positivity
      omega
    generalize hI : digitsVal x.int = I at *
    generalize hFv : digitsVal x.fracDigits = F at *
    have hFz : (∀ d ∈ x.fracDigits, d = 0) ↔ F = 0 := by
      rw [← hFv]; exact ⟨digitsVal_all_zero, digitsVal_eq_zero⟩
    rw [if_congr hFz rfl rfl]
    generalize hnf : x.fracDigits.length = nf at *
    generalize ht : tail.length = t at *
    generalize hτv : digitsVal tail = τ at *
    have ha : 0 < 10 ^ nf := by positivity
    -- relation of the weights
    have hle : t ≤ nf → ∃ k, nf = t + k ∧ 10 ^ nf = 10 ^ t * 10 ^ k := fun h => ⟨nf - t, by omega, by rw [← pow_add]; congr 1; omega⟩
    have hge : nf ≤ t → ∃ k, t = nf + k ∧ 10 ^ t = 10 ^ nf * 10 ^ k := fun h => ⟨t - nf, by omega, by rw [← pow_add]; congr 1; omega⟩
    have hpt : 0 < 10 ^ t := by positivity
    rcases h7 with ⟨k1, -, k3⟩ | ⟨k1, k2, -⟩
    · have hτ0 : τ = 0 := by rw [← hτv]; exact digitsVal_all_zero k1
      subst hτ0
      have h10 : ¬ 10 ∣ P := by
        intro hc; rw [hP] at hc
        exact k3 (getLast_zero_dvd hc (by rw [hds]; simp))
      by_cases hF0 : F = 0
      · rw [if_pos hF0]
        subst hF0
        have htn : nf ≤ t := by
          by_contra hc
          obtain ⟨k, g1, g2⟩ := hle (by omega)
          have hk : k ≠ 0 := by omega
          rw [g2] at hsplit
          have : P = I * 10 ^ k := by
            have : 10 ^ t * P = 10 ^ t * (I * 10 ^ k) := by linarith
            exact Nat.eq_of_mul_eq_mul_left hpt this
          apply h10; rw [this]
          exact Dvd.dvd.mul_left (dvd_pow_self 10 hk) I
        obtain ⟨k, g1, g2⟩ := hge htn
        have hIk : I = P * 10 ^ k := by
          rw [g2] at hsplit
          have : 10 ^ nf * I = 10 ^ nf * (P * 10 ^ k) := by linarith
          exact Nat.eq_of_mul_eq_mul_left ha this
        have hKk : K = k := by omega
        have hI0 : I ≠ 0 := by rw [hIk]; positivity
        rw [hKk]
        constructor
        · intro hc
          right
          refine ⟨hI0, ?_⟩
          rw [hIk]
          exact Dvd.dvd.mul_left (pow_dvd_pow 10 (by omega)) P
        · rintro (hc | ⟨-, hc⟩) ⟨-, h3'⟩
          · have : 10 ^ k ≤ 10 ^ 3 := Nat.pow_le_pow_right (by norm_num) (by omega)
            rw [hIk] at hc
            nlinarith
          · apply h10
            rw [hIk] at hc
            obtain ⟨q, hq⟩ := hc
            have hk3 : k ≤ 3 := by omega
            have e : (10 : Nat) ^ 4 = 10 ^ k * 10 ^ (4 - k) := by rw [← pow_add]; congr 1; omega
            have : P = 10 ^ (4 - k) * q := by
              have : 10 ^ k * P = 10 ^ k * (10 ^ (4 - k) * q) := by rw [mul_comm, hq, e]; ring
              exact Nat.eq_of_mul_eq_mul_left (by positivity) this
            rw [this]
            exact Dvd.dvd.mul_right (dvd_pow_self 10 (by omega)) q
      · rw [if_neg hF0]
        have htn : t < nf := by
          by_contra hc
          obtain ⟨k, g1, g2⟩ := hge (by omega)
          apply hF0
          rw [g2] at hsplit
          have hd : 10 ^ nf ∣ F := by
            have : 10 ^ nf ∣ I * 10 ^ nf + F := ⟨P * 10 ^ k, by linarith⟩
            exact (Nat.dvd_add_right (Dvd.intro_left I rfl)).mp this
          exact Nat.eq_zero_of_dvd_of_lt hd hF
        obtain ⟨k, g1, g2⟩ := hle (by omega)
        refine ⟨fun _ => Or.inr ?_, fun _ => by omega⟩
        have hk : 10 ^ 1 ≤ 10 ^ k := Nat.pow_le_pow_right (by norm_num) (by omega)
        by_contra hc
        have h1 : 10 ^ 8 * (10 ^ t * 10) ≤ I * 10 ^ nf := by
          rw [g2]; exact Nat.mul_le_mul (by omega) (Nat.mul_le_mul_left _ (by omega))
        have h2 : P * 10 ^ t < 10 ^ 9 * 10 ^ t := Nat.mul_lt_mul_of_pos_right hP9 hpt
        omega
    · have hτ0 : τ ≠ 0 := by rw [← hτv]; exact digitsVal_ne_zero_of k2
      have hP8 : 10 ^ 8 ≤ P := by
        rw [hP, hds]
        have := digitsVal_head (ds := ds') hd
        rw [hds] at k1
        simp at k1
        rwa [k1] at this
      by_cases hF0 : F = 0
      · rw [if_pos hF0]
        subst hF0
        have htn : nf < t := by
          by_contra hc
          obtain ⟨k, g1, g2⟩ := hle (by omega)
          apply hτ0
          rw [g2] at hsplit
          have hd : 10 ^ t ∣ τ := by
            have : 10 ^ t ∣ P * 10 ^ t + τ := ⟨I * 10 ^ k, by linarith⟩
            exact (Nat.dvd_add_right (Dvd.intro_left P rfl)).mp this
          exact Nat.eq_zero_of_dvd_of_lt hd hτ
        obtain ⟨k, g1, g2⟩ := hge (by omega)
        constructor
        · intro hc
          left
          have hk : 10 ^ 4 ≤ 10 ^ k := Nat.pow_le_pow_right (by norm_num) (by omega)
          by_contra hcc
          have h1 : I * 10 ^ nf < 10 ^ 12 * 10 ^ nf := Nat.mul_lt_mul_of_pos_right (by omega) ha
          have h2 : 10 ^ 8 * (10 ^ nf * 10 ^ 4) ≤ P * 10 ^ t := by
            rw [g2]; exact Nat.mul_le_mul hP8 (Nat.mul_le_mul_left _ hk)
          omega
        · rintro (hc | ⟨-, hc⟩) ⟨-, h3'⟩
          · have hk : 10 ^ k ≤ 10 ^ 3 := Nat.pow_le_pow_right (by norm_num) (by omega)
            have h1 : 10 ^ 12 * 10 ^ nf ≤ I * 10 ^ nf := Nat.mul_le_mul_right _ hc
            have h2 : (P + 1) * 10 ^ t ≤ 10 ^ 9 * (10 ^ nf * 10 ^ 3) := by
              rw [g2]; exact Nat.mul_le_mul (by omega) (Nat.mul_le_mul_left _ hk)
            have h4 : (P + 1) * 10 ^ t = P * 10 ^ t + 10 ^ t := by ring
            omega
          · apply hτ0
            obtain ⟨q, hq⟩ := hc
            have hd : 10 ^ t ∣ τ := by
              have e : (10 : Nat) ^ 4 = 10 ^ k * 10 ^ (4 - k) := by rw [← pow_add]; congr 1; omega
              have : 10 ^ t ∣ P * 10 ^ t + τ := ⟨10 ^ (4 - k) * q, by rw [hsplit, hq, e, g2]; ring⟩
              exact (Nat.dvd_add_right (Dvd.intro_left P rfl)).mp this
            exact Nat.eq_zero_of_dvd_of_lt hd hτ
      · rw [if_neg hF0]
        rcases lt_or_ge t nf with htn | htn
        · obtain ⟨k, g1, g2⟩ := hle (by omega)
          refine ⟨fun _ => Or.inr ?_, fun _ => by omega⟩
          have hk : 10 ^ 1 ≤ 10 ^ k := Nat.pow_le_pow_right (by norm_num) (by omega)
          by_contra hc
          have h1 : 10 ^ 8 * (10 ^ t * 10) ≤ I * 10 ^ nf := by
            rw [g2]; exact Nat.mul_le_mul (by omega) (Nat.mul_le_mul_left _ (by omega))
          have h2 : (P + 1) * 10 ^ t ≤ 10 ^ 9 * 10 ^ t := Nat.mul_le_mul_right _ (by omega)
          have h4 : (P + 1) * 10 ^ t = P * 10 ^ t + 10 ^ t := by ring
          omega
        · obtain ⟨k, g1, g2⟩ := hge htn
          have hI8 : 10 ^ 8 ≤ I := by
            by_contra hc
            have h1 : (I + 1) * 10 ^ nf ≤ 10 ^ 8 * 10 ^ nf := Nat.mul_le_mul_right _ (by omega)
            have h4 : (I + 1) * 10 ^ nf = I * 10 ^ nf + 10 ^ nf := by ring
            have h2 : 10 ^ 8 * (10 ^ nf * 1) ≤ P * 10 ^ t := by
              rw [g2]; exact Nat.mul_le_mul hP8 (Nat.mul_le_mul_left _ (Nat.one_le_pow _ _ (by norm_num)))
            omega
          constructor
          · intro hc
            left
            have hk : 10 ^ 4 ≤ 10 ^ k := Nat.pow_le_pow_right (by norm_num) (by omega)
            by_contra hcc
            have h1 : (I + 1) * 10 ^ nf ≤ 10 ^ 12 * 10 ^ nf := Nat.mul_le_mul_right _ (by omega)
            have h4 : (I + 1) * 10 ^ nf = I * 10 ^ nf + 10 ^ nf := by ring
            have h2 : 10 ^ 8 * (10 ^ nf * 10 ^ 4) ≤ P * 10 ^ t := by
              rw [g2]; exact Nat.mul_le_mul hP8 (Nat.mul_le_mul_left _ hk)
            omega
          · rintro (hc | hc) ⟨-, h3'⟩
            · have hk : 10 ^ k ≤ 10 ^ 3 := Nat.pow_le_pow_right (by norm_num) (by omega)
              have h1 : 10 ^ 12 * 10 ^ nf ≤ I * 10 ^ nf := Nat.mul_le_mul_right _ hc
              have h2 : (P + 1) * 10 ^ t ≤ 10 ^ 9 * (10 ^ nf * 10 ^ 3) := by
                rw [g2]; exact Nat.mul_le_mul (by omega) (Nat.mul_le_mul_left _ hk)
              have h4 : (P + 1) * 10 ^ t = P * 10 ^ t + 10 ^ t := by ring
              omega
            · omega


/-- The exponent digits outside `ExpFault` are read exactly below `10^9`. -/
theorem exp_value {x : Numeral} {P : Nat} {K : Int} {frac : Nat} (h : Reads 9 x P K frac)
    (hK : 0 ≤ K ∧ K ≤ 3) (hI : digitsVal x.int < 10 ^ 9) : P * 10 ^ K.toNat = digitsVal x.int := by
  have hsplit : digitsVal (allDigits x) = digitsVal x.int * 10 ^ x.fracDigits.length + digitsVal x.fracDigits := by
    unfold allDigits; rw [digitsVal_append]
  have hF := digitsVal_lt x.fracDigits
  rcases h with ⟨h1, rfl, rfl, -⟩ | ⟨z, ds, tail, h1, ⟨d, ds', hds, hd⟩, h3, hP, hKt, h7⟩
  · have h2 := zeros_append.mp h1
    rw [digitsVal_all_zero h2.1]; norm_num
  · rw [h1, digitsVal_append, digitsVal_replicate_zero, zero_mul, zero_add, digitsVal_append, ← hP] at hsplit
    have hτ := digitsVal_lt tail
    generalize hFv : digitsVal x.fracDigits = F at *
    generalize digitsVal x.int = I at *
    generalize x.fracDigits.length = nf at *
    generalize ht : tail.length = t at *
    generalize hτv : digitsVal tail = τ at *
    have ha : 0 < 10 ^ nf := by positivity
    obtain ⟨k, g1, g2⟩ : ∃ k, t = nf + k ∧ 10 ^ t = 10 ^ nf * 10 ^ k := ⟨t - nf, by omega, by rw [← pow_add]; congr 1; omega⟩
    have hk : K.toNat = k := by omega
    rw [hk]
    rw [g2] at hsplit hτ
    have key : ∀ {A B τ F a : Nat}, 0 < a → A * a + τ = B * a + F → τ < a → F < a → A = B := by
      intro A B τ F a ha h1 h2 h3
      rcases Nat.lt_trichotomy A B with h | h | h
      · exfalso
        have := Nat.mul_le_mul_right a (show A + 1 ≤ B from h)
        rw [Nat.add_mul] at this; omega
      · exact h
      · exfalso
        have := Nat.mul_le_mul_right a (show B + 1 ≤ A from h)
        rw [Nat.add_mul] at this; omega
    rcases h7 with ⟨k1, -, -⟩ | ⟨k1, -, -⟩
    · have hτ0 : τ = 0 := by rw [← hτv]; exact digitsVal_all_zero k1
      exact key (τ := 0) (F := F) ha (by rw [← hsplit, hτ0]; ring) ha hF
    · have hP8 : 10 ^ 8 ≤ P := by
        rw [hP, hds]
        have := digitsVal_head (ds := ds') hd
        rw [hds] at k1
        simp at k1
        rwa [k1] at this
      rcases Nat.eq_zero_or_pos k with hk0 | hk0
      · subst hk0
        rw [pow_zero, mul_one] at *
        exact key ha hsplit hτ hF
      · exfalso
        have h1 : 10 ^ 1 ≤ 10 ^ k := Nat.pow_le_pow_right (by norm_num) hk0
        have h2 : 10 ^ 8 * (10 ^ nf * 10) ≤ P * (10 ^ nf * 10 ^ k) := Nat.mul_le_mul hP8 (Nat.mul_le_mul_left _ (by omega))
        have h4 : (I + 1) * 10 ^ nf ≤ 10 ^ 9 * 10 ^ nf := Nat.mul_le_mul_right _ (by omega)
        rw [Nat.add_mul] at h4
        omega

/-- `parse_exponent` from the result of `parse_digits`. -/
theorem parseExponent_digits {mem : List Nat} {p c : Nat} {dp : DigitParseResult} (hc : mem[p]? = some c)
    (he : c = 'e'.toNat ∨ c = 'E'.toNat) (hd : parseDigits .float mem (p + 1) = .ok dp) (hK : -2050 ≤ dp.K ∧ dp.K ≤ 2050) :
    parseExponent mem p = if 0 ≤ dp.K ∧ dp.K ≤ 3 then
      (do let v ← (if !dp.sign then chkInt (-toInt32 (dp.value * 10 ^ dp.K.toNat)) else pure (toInt32 (dp.value * 10 ^ dp.K.toNat)) : M Int)
          pure { value := v, strEnd := dp.strEnd }) else .error .badIndex := by
  unfold parseExponent
  rw [rd_of hc, ok_bind, if_neg (by tauto), hd, ok_bind]
  unfold seqPow
  by_cases h : 0 ≤ dp.K ∧ dp.K ≤ 3
  · have h1 : (dp.K % 2 ^ 64).toNat = dp.K.toNat := by omega
    have h2 : dp.K.toNat ≤ 3 := by omega
    rw [if_pos h, h1, if_pos (show dp.K.toNat ≤ exponentDecimalDigits from h2), ok_bind]
    have hpw : 10 ^ dp.K.toNat % 2 ^ 32 = 10 ^ dp.K.toNat := by
      generalize dp.K.toNat = L at h2
      interval_cases L <;> norm_num
    rw [hpw]
  · rw [if_neg h, if_neg]
    · rfl
    · show ¬ _ ≤ 3
      omega

end Floaxie
