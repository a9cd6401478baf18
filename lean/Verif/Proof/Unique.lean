import Verif.Proof.Atof

/-! # What is read does not depend on redundant spelling -/

namespace Floaxie

open Spec FloatType

theorem zeros_append {u v : List (Fin 10)} : (∀ d ∈ u ++ v, d = 0) ↔ (∀ d ∈ u, d = 0) ∧ (∀ d ∈ v, d = 0) := by
  simp only [List.mem_append]
  constructor
  · intro h; exact ⟨fun d hd => h d (Or.inl hd), fun d hd => h d (Or.inr hd)⟩
  · rintro ⟨h1, h2⟩ d (hd | hd)
    · exact h1 d hd
    · exact h2 d hd

theorem zeros_replicate (a : Nat) : ∀ d ∈ List.replicate a (0 : Fin 10), d = 0 :=
  fun _ hd => List.eq_of_mem_replicate hd

theorem getLast_zeros {u v : List (Fin 10)} (h : ∀ d ∈ v, d = 0) (hne : v ≠ []) :
    (u ++ v).getLast? = some 0 := by
  rw [List.getLast?_append_of_ne_nil _ hne, List.getLast?_eq_some_getLast hne, h _ (List.getLast_mem hne)]

theorem tail4_eq (u : List (Fin 10)) : tail4 u = digitsVal ((u ++ List.replicate 4 0).take 4) := by
  unfold tail4
  rw [List.take_append, List.take_replicate, show min (4 - u.length) 4 = 4 - u.length by omega]

theorem tail4_zeros (u : List (Fin 10)) (a : Nat) : tail4 (u ++ List.replicate a 0) = tail4 u := by
  rw [tail4_eq, tail4_eq, List.append_assoc, List.replicate_append_replicate, List.take_append, List.take_append,
    List.take_replicate, List.take_replicate]
  congr 3; omega

theorem fracSource_zeros {nf a : Nat} (u : List (Fin 10)) (h : a ≤ nf) :
    tail4 (fracSource nf (u ++ List.replicate a 0)) = tail4 (fracSource (nf - a) u) := by
  unfold fracSource
  simp only [List.length_append, List.length_replicate]
  by_cases hc : u.length + a ≤ nf
  · rw [if_pos hc, if_pos (by omega), tail4_zeros]
  · rw [if_neg hc, if_neg (by omega), List.take_append_of_le_length (by omega),
      show u.length + a - nf = u.length - (nf - a) by omega]

/-- Where the kept digits end. -/
theorem split_zeros {ds tail L : List (Fin 10)} {a : Nat} (h : ds ++ tail = L ++ List.replicate a 0)
    (hc : ((∀ d ∈ tail, d = 0) ∧ ds.getLast? ≠ some 0) ∨ ¬ ∀ d ∈ tail, d = 0) :
    ∃ X, L = ds ++ X ∧ tail = X ++ List.replicate a 0 := by
  rcases List.append_eq_append_iff.mp h with ⟨X, h1, h2⟩ | ⟨Y, h1, h2⟩
  · exact ⟨X, h1, h2⟩
  · have hz : ∀ d ∈ Y ++ tail, d = 0 := by rw [← h2]; exact zeros_replicate a
    obtain ⟨hY, ht⟩ := zeros_append.mp hz
    rcases hc with ⟨-, hl⟩ | hc
    · cases Y with
      | nil => exact ⟨[], by simpa using h1.symm, by simpa using h2.symm⟩
      | cons y ys => exact absurd (by rw [h1]; exact getLast_zeros hY (by simp)) hl
    · exact absurd ht hc

theorem head_dropWhile {z : Nat} {l L : List (Fin 10)} {d : Fin 10} (hd : d ≠ 0) (hl : l = d :: L) :
    (List.replicate z 0 ++ l).dropWhile (· = 0) = l := by
  induction z with
  | zero => rw [hl]; simp [hd]
  | succ z ih => rw [List.replicate_succ]; simp [ih]

theorem dropWhile_append_zeros (L : List (Fin 10)) (a : Nat) (h : ¬ ∀ d ∈ L, d = 0) :
    (L ++ List.replicate a 0).dropWhile (· = 0) = L.dropWhile (· = 0) ++ List.replicate a 0 := by
  induction L with
  | nil => simp at h
  | cons x xs ih =>
    by_cases hx : x = 0
    · subst hx
      have : ¬ ∀ d ∈ xs, d = 0 := fun h' => h (by simpa using h')
      simp [ih this]
    · simp [hx]

/-- The digits of two spellings. -/
structure DigitsAlike (n n' : Numeral) (L : List (Fin 10)) (a a' : Nat) : Prop where
  left : ∃ z, allDigits n = List.replicate z 0 ++ (L ++ List.replicate a 0)
  right : ∃ z, allDigits n' = List.replicate z 0 ++ (L ++ List.replicate a' 0)
  fl : a ≤ n.fracDigits.length
  fr : a' ≤ n'.fracDigits.length
  eq : n.fracDigits.length - a = n'.fracDigits.length - a'

theorem exists_zeros_left (l : List (Fin 10)) : ∃ z, l = List.replicate z 0 ++ l.dropWhile (· = 0) := by
  induction l with
  | nil => exact ⟨0, rfl⟩
  | cons x xs ih =>
    by_cases hx : x = 0
    · obtain ⟨z, hz⟩ := ih
      refine ⟨z + 1, ?_⟩
      subst hx
      rw [List.replicate_succ]
      simpa using hz
    · exact ⟨0, by simp [hx]⟩

theorem exists_zeros_right (l : List (Fin 10)) : ∃ a, l = l.rdropWhile (· = 0) ++ List.replicate a 0 := by
  obtain ⟨a, ha⟩ := exists_zeros_left l.reverse
  refine ⟨a, ?_⟩
  rw [List.rdropWhile]
  have := congrArg List.reverse ha
  rw [List.reverse_reverse, List.reverse_append, List.reverse_replicate] at this
  exact this

theorem alike_of_same {n n' : Numeral} (h : SameMagnitude n n') : ∃ L a a', DigitsAlike n n' L a a' := by
  obtain ⟨z, hz⟩ := exists_zeros_left n.int
  obtain ⟨z', hz'⟩ := exists_zeros_left n'.int
  obtain ⟨a, ha⟩ := exists_zeros_right n.fracDigits
  obtain ⟨a', ha'⟩ := exists_zeros_right n'.fracDigits
  have l1 := congrArg List.length ha
  have l2 := congrArg List.length ha'
  rw [List.length_append, List.length_replicate] at l1 l2
  have l3 := congrArg List.length h.frac
  refine ⟨n.int.dropWhile (· = 0) ++ n.fracDigits.rdropWhile (· = 0), a, a', ⟨z, ?_⟩, ⟨z', ?_⟩, by omega, by omega, by omega⟩
  · unfold allDigits
    conv_lhs => rw [hz, ha]
    simp
  · unfold allDigits
    conv_lhs => rw [hz', ha']
    rw [h.int, h.frac]; simp

theorem readsExact_zero {κ : Nat} {n : Numeral} {P : Nat} {K : Int} {frac : Nat} (h : ReadsExact κ n P K frac)
    (h0 : ∀ d ∈ allDigits n, d = 0) : P = 0 ∧ K = 0 ∧ frac = 0 := by
  rcases h with ⟨-, h⟩ | ⟨z, ds, tail, h1, ⟨d, ds', rfl, hd⟩, -⟩
  · exact h
  · exact absurd (h0 d (by rw [h1]; simp)) hd

/-- Everything read, in terms of the digits common to the spellings. -/
theorem readsExact_core {κ : Nat} {n : Numeral} {P : Nat} {K : Int} {frac : Nat} {L : List (Fin 10)} {a : Nat}
    (h : ReadsExact κ n P K frac) (hL : ∃ z, allDigits n = List.replicate z 0 ++ (L ++ List.replicate a 0))
    (ha : a ≤ n.fracDigits.length) (h0 : ¬ ∀ d ∈ L, d = 0) :
    ∃ ds X, L.dropWhile (· = 0) = ds ++ X ∧ ds.length ≤ κ ∧ P = digitsVal ds ∧
      K = (X.length : Int) - (n.fracDigits.length - a : Nat) ∧
      (((∀ d ∈ X, d = 0) ∧ frac = 0 ∧ ds.getLast? ≠ some 0) ∨
       (ds.length = κ ∧ (¬ ∀ d ∈ X, d = 0) ∧
        frac = convertNumerator 4 7 (tail4 (fracSource (n.fracDigits.length - a) X)) % 256)) := by
  obtain ⟨z', hz'⟩ := hL
  rcases h with ⟨h1, -⟩ | ⟨z, ds, tail, h1, ⟨d, ds', rfl, hd⟩, h3, h4, h5, h6⟩
  · exfalso
    apply h0
    rw [hz'] at h1
    exact (zeros_append.mp (zeros_append.mp h1).2).1
  · have e : (d :: ds') ++ tail = L.dropWhile (· = 0) ++ List.replicate a 0 := by
      have e1 := head_dropWhile (z := z) (L := ds' ++ tail) hd (show (d :: ds') ++ tail = d :: (ds' ++ tail) from rfl)
      rw [← h1, hz'] at e1
      rw [← e1, ← dropWhile_append_zeros _ _ h0]
      clear e1 hz'
      induction z' with
      | zero => rfl
      | succ z' ih => rw [List.replicate_succ]; simpa using ih.symm
    obtain ⟨X, x1, x2⟩ := split_zeros e (by
      rcases h6 with ⟨g1, -, g3⟩ | ⟨-, g2, -⟩
      · exact Or.inl ⟨g1, g3⟩
      · exact Or.inr g2)
    refine ⟨d :: ds', X, x1, h3, h4, ?_, ?_⟩
    · rw [h5, x2]; simp; omega
    · rcases h6 with ⟨g1, g2, g3⟩ | ⟨g1, g2, g3⟩
      · rw [x2] at g1
        exact Or.inl ⟨(zeros_append.mp g1).1, g2, g3⟩
      · refine Or.inr ⟨g1, fun hx => g2 ?_, ?_⟩
        · rw [x2]; exact zeros_append.mpr ⟨hx, zeros_replicate a⟩
        · rw [g3, x2, fracSource_zeros X ha]

theorem core_unique {κ : Nat} {ds X ds' X' : List (Fin 10)} (h : ds ++ X = ds' ++ X') (hl : ds.length ≤ κ) (hl' : ds'.length ≤ κ)
    (hc : ((∀ d ∈ X, d = 0) ∧ ds.getLast? ≠ some 0) ∨ (ds.length = κ ∧ ¬ ∀ d ∈ X, d = 0))
    (hc' : ((∀ d ∈ X', d = 0) ∧ ds'.getLast? ≠ some 0) ∨ (ds'.length = κ ∧ ¬ ∀ d ∈ X', d = 0)) :
    ds = ds' ∧ X = X' := by
  rcases List.append_eq_append_iff.mp h with ⟨Y, h1, h2⟩ | ⟨Y, h1, h2⟩
  · cases Y with
    | nil => simp at h1 h2; exact ⟨h1.symm, h2⟩
    | cons y ys =>
      exfalso
      have hlen := congrArg List.length h1
      simp at hlen
      rcases hc with ⟨g1, -⟩ | ⟨g1, -⟩
      · rw [h2] at g1
        obtain ⟨y0, x0⟩ := zeros_append.mp g1
        rcases hc' with ⟨-, k2⟩ | ⟨-, k2⟩
        · exact k2 (by rw [h1]; exact getLast_zeros y0 (by simp))
        · exact k2 x0
      · omega
  · cases Y with
    | nil => simp at h1 h2; exact ⟨h1, h2.symm⟩
    | cons y ys =>
      exfalso
      have hlen := congrArg List.length h1
      simp at hlen
      rcases hc' with ⟨g1, -⟩ | ⟨g1, -⟩
      · rw [h2] at g1
        obtain ⟨y0, x0⟩ := zeros_append.mp g1
        rcases hc with ⟨-, k2⟩ | ⟨-, k2⟩
        · exact k2 (by rw [h1]; exact getLast_zeros y0 (by simp))
        · exact k2 x0
      · omega

theorem readsExact_unique {κ : Nat} {n n' : Numeral} {P P' : Nat} {K K' : Int} {frac frac' : Nat}
    (h : ReadsExact κ n P K frac) (h' : ReadsExact κ n' P' K' frac') (hs : SameMagnitude n n') :
    P = P' ∧ K = K' ∧ frac = frac' := by
  obtain ⟨L, a, a', hA⟩ := alike_of_same hs
  by_cases h0 : ∀ d ∈ L, d = 0
  · obtain ⟨z, hz⟩ := hA.left
    obtain ⟨z', hz'⟩ := hA.right
    obtain ⟨r1, r2, r3⟩ := readsExact_zero h (by
      rw [hz]; exact zeros_append.mpr ⟨zeros_replicate z, zeros_append.mpr ⟨h0, zeros_replicate a⟩⟩)
    obtain ⟨s1, s2, s3⟩ := readsExact_zero h' (by
      rw [hz']; exact zeros_append.mpr ⟨zeros_replicate z', zeros_append.mpr ⟨h0, zeros_replicate a'⟩⟩)
    exact ⟨by rw [r1, s1], by rw [r2, s2], by rw [r3, s3]⟩
  · obtain ⟨ds, X, c1, c2, c3, c4, c5⟩ := readsExact_core h hA.left hA.fl h0
    obtain ⟨ds', X', d1, d2, d3, d4, d5⟩ := readsExact_core h' hA.right hA.fr h0
    obtain ⟨rfl, rfl⟩ := core_unique (c1.symm.trans d1) c2 d2 (by
        rcases c5 with ⟨a1, -, a2⟩ | ⟨a1, a2, -⟩
        · exact Or.inl ⟨a1, a2⟩
        · exact Or.inr ⟨a1, a2⟩) (by
        rcases d5 with ⟨a1, -, a2⟩ | ⟨a1, a2, -⟩
        · exact Or.inl ⟨a1, a2⟩
        · exact Or.inr ⟨a1, a2⟩)
    refine ⟨by rw [c3, d3], by rw [c4, d4, hA.eq], ?_⟩
    rcases c5 with ⟨a1, a2, -⟩ | ⟨-, a2, a3⟩
    · rcases d5 with ⟨-, b2, -⟩ | ⟨-, b2, -⟩
      · rw [a2, b2]
      · exact absurd a1 b2
    · rcases d5 with ⟨b1, -⟩ | ⟨-, -, b3⟩
      · exact absurd b1 a2
      · rw [a3, b3, hA.eq]

/-- `downsample` of a normalized number never fails; overflow from exponent
`maxExp` on, underflow below the smallest subnormal. -/
theorem downsample_total (T : FloatType) (w : DiyFp) (hf1 : 2 ^ (T.W - 1) ≤ w.f) (hf2 : w.f < 2 ^ T.W) :
    (T.maxExp ≤ w.e ∧ w.downsample T = .ok { value := posInf T, status := .overflow, isAccurate := true }) ∨
    (w.e + T.W < emin T + 1 ∧ w.downsample T = .ok { value := 0, status := .underflow, isAccurate := true }) ∨
    (w.e < T.maxExp ∧ emin T + 1 ≤ w.e + T.W ∧
      ∃ v acc, w.downsample T = .ok { value := v, status := .success, isAccurate := acc }) := by
  have hf0 : w.f ≠ 0 := by have : 0 < 2 ^ (T.W - 1) := by positivity
                           omega
  have hnorm : w.isNormalized T.W = .ok true := by
    unfold DiyFp.isNormalized
    rw [assertM_true (by simpa using hf0), ok_bind]
    have := highestBit_eq (W_pos T) hf2
    unfold highestBit nthBit at this
    unfold msbValue
    simp only [pure, Except.pure, Except.ok.injEq]
    rw [this]; simpa using hf1
  have hmin : T.minExp - (T.mbs : Int) = emin T + 1 := by
    cases T <;> decide
  have hinf : T.infBits = posInf T := by cases T <;> decide
  unfold DiyFp.downsample
  rw [assertM_true (by simpa using hf0), ok_bind, hnorm, ok_bind, assertM_true rfl, ok_bind]
  by_cases h1 : w.e ≥ T.maxExp
  · left
    refine ⟨h1, ?_⟩
    rw [if_pos h1, hinf]; rfl
  · rw [if_neg h1]
    by_cases h2 : w.e + T.W < T.minExp - T.mbs
    · right; left
      refine ⟨by omega, ?_⟩
      rw [if_pos h2]; rfl
    · right; right
      refine ⟨by omega, by omega, ?_⟩
      rw [if_neg h2]
      dsimp only
      have hW : 0 < T.W - T.p ∧ T.W - T.p ≤ T.W := by cases T <;> decide
      have hd : positivePart (T.minExp - T.mbs - w.e - 1) < T.W := by
        unfold positivePart; omega
      rw [assertM_true (by simpa using hd), ok_bind]
      rw [roundUp_eq (by omega) (by omega) hf2, ok_bind]
      exact ⟨_, _, rfl⟩

/-- The last part of `krosh` never fails on a normalized mantissa; the sign is
applied unless the decimal exponent is outside the table of powers. -/
theorem kroshTail_total {T : FloatType} {w : DiyFp} (hf1 : 2 ^ (T.W - 1) ≤ w.f) (hf2 : w.f < 2 ^ T.W) (K : Int) :
    (¬ (K = 0 ∨ (T.powLo ≤ K ∧ K ≤ T.powHi)) ∧ ∀ pos strEnd, kroshTail T w K pos strEnd =
      .ok { value := if K < T.powLo then 0 else posInf T, strEnd := strEnd
            status := if K < T.powLo then .underflow else .overflow, isAccurate := true }) ∨
    ((K = 0 ∨ (T.powLo ≤ K ∧ K ≤ T.powHi)) ∧ ∃ v st acc, (st ≠ .success → acc = true) ∧
      ∀ pos strEnd, kroshTail T w K pos strEnd =
      .ok { value := if pos then v else neg T v, strEnd := strEnd, status := st, isAccurate := acc }) := by
  by_cases hK : K = 0 ∨ (T.powLo ≤ K ∧ K ≤ T.powHi)
  · right
    refine ⟨hK, ?_⟩
    obtain ⟨w', y, j, h1, h2, h3, -⟩ := scale_ok (Y := w.f * 2 ^ w.e) (ε := 0) hf1 hf2 hK le_rfl (by simp)
    have key : ∃ v st acc, (st ≠ .success → acc = true) ∧
        w'.downsample T = .ok { value := v, status := st, isAccurate := acc } := by
      rcases downsample_total T w' h2 h3 with ⟨-, h⟩ | ⟨-, h⟩ | ⟨-, -, v, acc, h⟩
      · exact ⟨_, _, _, fun _ => rfl, h⟩
      · exact ⟨_, _, _, fun _ => rfl, h⟩
      · exact ⟨_, _, _, fun h' => absurd rfl h', h⟩
    obtain ⟨v, st, acc, k1, k2⟩ := key
    refine ⟨v, st, acc, k1, fun pos strEnd => ?_⟩
    unfold kroshTail
    rw [if_neg (by tauto), h1, ok_bind, k2, ok_bind, negBits_eq]
    cases pos <;> rfl
  · left
    refine ⟨hK, fun pos strEnd => ?_⟩
    have hinf : T.infBits = posInf T := by cases T <;> decide
    unfold kroshTail
    rw [if_pos (by tauto)]
    by_cases hlo : T.powLo ≤ K
    · rw [if_neg (by simpa using hlo), if_neg (by omega), if_neg (by omega), hinf]; rfl
    · rw [if_pos hlo, if_pos (by omega), if_pos (by omega)]; rfl

/-- `krosh` on two spellings of the same number, up to sign. -/
theorem krosh_same {T : FloatType} {mem mem' : List Nat} {str str' : Nat} {n n' : Numeral}
    (h : NumeralAt mem str n) (h' : NumeralAt mem' str' n') (hs : SameMagnitude n n') (h0 : n.absValue ≠ 0) :
    ∃ (w : DiyFp) (K : Int), 2 ^ (T.W - 1) ≤ w.f ∧ w.f < 2 ^ T.W ∧
      krosh T mem str = kroshTail T w K (!n.isNeg) (str + n.text.length) ∧
      krosh T mem' str' = kroshTail T w K (!n'.isNeg) (str' + n'.text.length) := by
  obtain ⟨c, R, hm, he, hd⟩ := h.scan
  obtain ⟨c', R', hm', he', hd'⟩ := h'.scan
  obtain ⟨P, K, frac, w, h1, g1, h2, h3, h4⟩ := parseMantissa_num (T := T) hm he h.mantLen
  obtain ⟨P', K', frac', w', h1', g1', h2', h3', h4'⟩ := parseMantissa_num (T := T) hm' he' h'.mantLen
  obtain ⟨rfl, rfl, rfl⟩ := readsExact_unique g1 g1' hs
  have hmv : mantVal n ≠ 0 := by
    intro hz; apply h0; rw [absValue_eq, hz, zero_mul]
  have hP : P ≠ 0 := fun hz => hmv (h1.zero_iff.mp hz)
  have hww : w = w' := by
    have := h2 hP
    rw [h2' hP] at this
    exact (Except.ok.inj this).symm
  subst hww
  obtain ⟨w', Y, w1, w2, w3, w4, w5, w6, w7, w8, w9⟩ := mantissa_ok h1 hP
  have hww : w = w' := by
    have := h2 hP
    rw [w1] at this
    exact (Except.ok.inj this).symm
  subst hww
  have hf : w.f ≠ 0 := by
    have : 0 < 2 ^ (T.W - 1) := by positivity
    omega
  have hKb := h1.K_bound hP h.mantLen
  have hEb := h.exp_bound
  have hEb' := h'.exp_bound
  refine ⟨w, K + n.expValue, w2, w3, ?_, ?_⟩
  · rw [krosh_eq_tail h4 rfl hf h.exponent (by dsimp only; omega)]
  · rw [krosh_eq_tail h4' rfl hf h'.exponent (by dsimp only; omega), hs.exp]

end Floaxie
