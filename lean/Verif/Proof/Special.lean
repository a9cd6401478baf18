import Verif.Spec.Special
import Verif.Proof.Total

/-!
# `eat_nan` and `eat_inf` find the longest word
-/

namespace Floaxie

open FloatType Spec

theorem toLower_eq (c : Nat) : Locale.lower c = lower c := rfl

theorem lower_iff {c x : Nat} (hx : 97 ≤ x ∧ x ≤ 122) : lower c = x ↔ c = x ∨ c = x - 32 := by
  unfold lower
  have h1 : 'A'.toNat = 65 := by decide
  have h2 : 'Z'.toNat = 90 := by decide
  rw [h1, h2]
  split_ifs <;> omega

theorem nchar_iff (c : Nat) : (('0'.toNat ≤ c ∧ c ≤ '9'.toNat) ∨
       ('a'.toNat ≤ Locale.lower c ∧ Locale.lower c ≤ 'z'.toNat) ∨ c = '_'.toNat) ↔ NChar c := by
  rw [show Locale.lower c = toLower c from rfl]
  unfold NChar toLower
  have h1 : 'A'.toNat = 65 := by decide
  have h2 : 'Z'.toNat = 90 := by decide
  have h3 : 'a'.toNat = 97 := by decide
  have h4 : 'z'.toNat = 122 := by decide
  rw [h1, h2, h3, h4]
  split_ifs <;> omega

theorem not_nchar_zero : ¬ NChar 0 := by unfold NChar; decide
theorem not_nchar_close : ¬ NChar ')'.toNat := by unfold NChar; decide

theorem eatNanLoop_spec {mem : List Nat} : ∀ (fuel cp : Nat), Nul mem cp → mem.length < fuel + cp →
    ∃ u d R, mem.drop cp = u ++ d :: R ∧ (∀ c ∈ u, NChar c) ∧ ¬ NChar d ∧ eatNanLoop mem fuel cp = .ok (cp + u.length) := by
  intro fuel
  induction fuel with
  | zero =>
    intro cp h hl
    obtain ⟨z, h1, h2⟩ := h
    obtain ⟨hz, -⟩ := List.getElem?_eq_some_iff.mp h2
    omega
  | succ fuel ih =>
    intro cp h hl
    obtain ⟨c, hc⟩ := h.get
    unfold eatNanLoop
    rw [rd_of hc, ok_bind]
    by_cases hn : NChar c
    · rw [if_pos ((nchar_iff c).mpr hn)]
      obtain ⟨u, d, R, h1, h2, h3, h4⟩ := ih (cp + 1) (h.next hc (by rintro rfl; exact not_nchar_zero hn)) (by omega)
      refine ⟨c :: u, d, R, ?_, ?_, h3, ?_⟩
      · rw [drop_of_get hc, h1]; rfl
      · intro x hx
        rcases List.mem_cons.mp hx with rfl | hx
        · exact hn
        · exact h2 x hx
      · rw [h4, List.length_cons, Nat.add_assoc, Nat.add_comm 1]
    · rw [if_neg (by rwa [nchar_iff])]
      exact ⟨[], c, mem.drop (cp + 1), drop_of_get hc, by simp, hn, rfl⟩

theorem span_unique {u u' : List Nat} : ∀ {d d' : Nat} {R R' : List Nat}, u ++ d :: R = u' ++ d' :: R' →
    (∀ c ∈ u, NChar c) → (∀ c ∈ u', NChar c) → ¬ NChar d → ¬ NChar d' → u = u' ∧ d = d' := by
  induction u generalizing u' with
  | nil =>
    intro d d' R R' h h1 h2 h3 h4
    cases u' with
    | nil => simp only [List.nil_append, List.cons.injEq] at h; exact ⟨rfl, h.1⟩
    | cons x u' =>
      simp only [List.nil_append, List.cons_append, List.cons.injEq] at h
      exact absurd (h2 x (by simp)) (h.1 ▸ h3)
  | cons y u ih =>
    intro d d' R R' h h1 h2 h3 h4
    cases u' with
    | nil =>
      simp only [List.nil_append, List.cons_append, List.cons.injEq] at h
      exact absurd (h1 y (by simp)) (h.1 ▸ h4)
    | cons x u' =>
      simp only [List.cons_append, List.cons.injEq] at h
      obtain ⟨rfl, rfl⟩ := ih h.2 (fun c hc => h1 c (by simp [hc])) (fun c hc => h2 c (by simp [hc])) h3 h4
      rw [h.1]; exact ⟨rfl, rfl⟩

theorem spells_nan {t : List Nat} : Spells "nan" t ↔ ∃ a b c, t = [a, b, c] ∧ (a = 110 ∨ a = 78) ∧ (b = 97 ∨ b = 65) ∧ (c = 110 ∨ c = 78) := by
  have hc : chars "nan" = [110, 97, 110] := by decide
  unfold Spells
  rw [hc]
  constructor
  · intro h
    obtain ⟨a, b, c, rfl⟩ := List.length_eq_three.mp (show t.length = 3 by simpa using congrArg List.length h)
    simp only [List.map_cons, List.map_nil, List.cons.injEq, and_true] at h
    rw [lower_iff (by omega), lower_iff (by omega), lower_iff (by omega)] at h
    exact ⟨a, b, c, rfl, h⟩
  · rintro ⟨a, b, c, rfl, h⟩
    simp only [List.map_cons, List.map_nil, List.cons.injEq, and_true]
    rw [lower_iff (by omega), lower_iff (by omega), lower_iff (by omega)]
    exact h

theorem spells_inf {t : List Nat} : Spells "inf" t ↔ ∃ a b c, t = [a, b, c] ∧ (a = 105 ∨ a = 73) ∧ (b = 110 ∨ b = 78) ∧ (c = 102 ∨ c = 70) := by
  have hc : chars "inf" = [105, 110, 102] := by decide
  unfold Spells
  rw [hc]
  constructor
  · intro h
    obtain ⟨a, b, c, rfl⟩ := List.length_eq_three.mp (show t.length = 3 by simpa using congrArg List.length h)
    simp only [List.map_cons, List.map_nil, List.cons.injEq, and_true] at h
    rw [lower_iff (by omega), lower_iff (by omega), lower_iff (by omega)] at h
    exact ⟨a, b, c, rfl, h⟩
  · rintro ⟨a, b, c, rfl, h⟩
    simp only [List.map_cons, List.map_nil, List.cons.injEq, and_true]
    rw [lower_iff (by omega), lower_iff (by omega), lower_iff (by omega)]
    exact h

/-- `infinity` is `inf`, `i`, and a suffix. -/
theorem spells_infinity {t : List Nat} : Spells "infinity" t ↔ ∃ a b c d s, t = a :: b :: c :: d :: s ∧ (a = 105 ∨ a = 73) ∧
    (b = 110 ∨ b = 78) ∧ (c = 102 ∨ c = 70) ∧ (d = 105 ∨ d = 73) ∧ s.map lower = [110, 105, 116, 121] := by
  have hc : chars "infinity" = [105, 110, 102, 105, 110, 105, 116, 121] := by decide
  unfold Spells
  rw [hc]
  constructor
  · intro h
    have hl : t.length = 8 := by simpa using congrArg List.length h
    rcases t with _ | ⟨a, _ | ⟨b, _ | ⟨c, _ | ⟨d, s⟩⟩⟩⟩
    · simp at hl
    · simp at hl
    · simp at hl
    · simp at hl
    · simp only [List.map_cons, List.cons.injEq] at h
      rw [lower_iff (by omega), lower_iff (by omega), lower_iff (by omega), lower_iff (by omega)] at h
      exact ⟨a, b, c, d, s, rfl, h⟩
  · rintro ⟨a, b, c, d, s, rfl, h⟩
    simp only [List.map_cons, List.cons.injEq]
    rw [lower_iff (by omega), lower_iff (by omega), lower_iff (by omega), lower_iff (by omega)]
    exact h

theorem word_nan_iff {w : List Nat} {b : Bool} {c0 : Nat} {t : List Nat} (hc : c0 = 110 ∨ c0 = 78) (h : Word b w) (hp : w <+: c0 :: t) :
    b = true ∧ ∃ x y r, t = x :: y :: r ∧ (x = 97 ∨ x = 65) ∧ (y = 110 ∨ y = 78) ∧
      (w.length = 3 ∨ ∃ u r', r = 40 :: (u ++ 41 :: r') ∧ (∀ c ∈ u, NChar c) ∧ w.length = 5 + u.length) := by
  obtain ⟨q, hq⟩ := hp
  cases h with
  | nan t' ht =>
    obtain ⟨a, b, c, rfl, -, h2, h3⟩ := spells_nan.mp ht
    simp only [List.cons_append, List.nil_append, List.cons.injEq] at hq
    exact ⟨rfl, b, c, q, hq.2.symm, h2, h3, Or.inl rfl⟩
  | nanSeq t' u ht hu =>
    obtain ⟨a, b, c, rfl, -, h2, h3⟩ := spells_nan.mp ht
    simp only [List.cons_append, List.nil_append, List.append_assoc, List.cons.injEq] at hq
    exact ⟨rfl, b, c, _, hq.2.symm, h2, h3, Or.inr ⟨u, q, rfl, hu, by simp; omega⟩⟩
  | inf _ ht =>
    obtain ⟨a, b, c, rfl, h1, -⟩ := spells_inf.mp ht
    simp only [List.cons_append, List.cons.injEq] at hq
    omega
  | infinity _ ht =>
    obtain ⟨a, b, c, d, s, rfl, h1, -⟩ := spells_infinity.mp ht
    simp only [List.cons_append, List.cons.injEq] at hq
    omega

theorem eatNan_spec {mem : List Nat} {i c0 : Nat} (hc0 : c0 = 110 ∨ c0 = 78) (h : Nul mem i) :
    (∃ w, LongestWord true w (c0 :: mem.drop i) ∧ eatNan mem i = .ok (w.length - 1) ∧ 3 ≤ w.length) ∨
    (NoWord (c0 :: mem.drop i) ∧ eatNan mem i = .ok 0) := by
  obtain ⟨c1, h1⟩ := h.get
  have d1 := drop_of_get h1
  unfold eatNan
  rw [rd_of h1, ok_bind]
  have e1 : 'a'.toNat = 97 := by decide
  have e2 : 'A'.toNat = 65 := by decide
  have e3 : 'n'.toNat = 110 := by decide
  have e4 : 'N'.toNat = 78 := by decide
  have e5 : '('.toNat = 40 := by decide
  have e6 : ')'.toNat = 41 := by decide
  rw [e1, e2, e3, e4, e5, e6]
  by_cases a1 : c1 = 97 ∨ c1 = 65
  · rw [if_pos a1]
    have n1 := h.next h1 (by omega)
    obtain ⟨c2, h2⟩ := n1.get
    have d2 := drop_of_get h2
    rw [rd_of h2, ok_bind]
    by_cases a2 : c2 = 110 ∨ c2 = 78
    · rw [if_pos a2]
      have n2 := n1.next h2 (by omega)
      obtain ⟨c3, h3⟩ := n2.get
      have d3 := drop_of_get h3
      rw [rd_of h3, ok_bind, d1, d2, d3]
      have hsp : Spells "nan" [c0, c1, c2] := spells_nan.mpr ⟨_, _, _, rfl, hc0, a1, a2⟩
      left
      by_cases a3 : c3 = 40
      · subst a3
        rw [if_pos rfl]
        have n3 := n2.next h3 (by omega)
        obtain ⟨u, d, R, g1, g2, g3, g4⟩ := eatNanLoop_spec (mem.length + 1) (i + 3) n3 (by omega)
        have hd : mem[i + 3 + u.length]? = some d := by
          apply get_of_drop (r := R); rw [← List.drop_drop, g1, List.drop_left]
        rw [g4, ok_bind, rd_of hd, ok_bind, show i + 1 + 1 + 1 = i + 3 by omega, g1]
        have long : ∀ b w', Word b w' → w' <+: c0 :: c1 :: c2 :: 40 :: (u ++ d :: R) → w'.length = 3 ∨
            (d = 41 ∧ w'.length = 5 + u.length) := by
          intro b w' hw' hp'
          obtain ⟨-, x, y, r, ht, -, -, hl | ⟨u', r', hr, hu', hl⟩⟩ := word_nan_iff hc0 hw' hp'
          · exact Or.inl hl
          · right
            simp only [List.cons.injEq] at ht
            rw [← ht.2.2, List.cons.injEq] at hr
            obtain ⟨rfl, rfl⟩ := span_unique hr.2 g2 hu' g3 not_nchar_close
            exact ⟨rfl, hl⟩
        by_cases a4 : d = 41
        · subst a4
          rw [if_pos rfl]
          refine ⟨[c0, c1, c2] ++ 40 :: (u ++ [41]), ⟨.nanSeq _ _ hsp g2, ⟨R, by simp⟩, ?_⟩, ?_, ?_⟩
          · intro b w' hw' hp'
            rcases long b w' hw' hp' with hl | ⟨-, hl⟩ <;> (rw [hl]; simp; try omega)
          · show Except.ok (i + 3 + u.length - i + 1) = _
            congr 1; simp; omega
          · simp
        · rw [if_neg a4]
          refine ⟨[c0, c1, c2], ⟨.nan _ hsp, ⟨40 :: (u ++ d :: R), rfl⟩, ?_⟩, rfl, by simp⟩
          intro b w' hw' hp'
          rcases long b w' hw' hp' with hl | ⟨hl, -⟩
          · rw [hl]; rfl
          · exact absurd hl a4
      · rw [if_neg a3]
        refine ⟨[c0, c1, c2], ⟨.nan _ hsp, ⟨c3 :: mem.drop (i + 1 + 1 + 1), rfl⟩, ?_⟩, rfl, by simp⟩
        intro b w' hw' hp'
        obtain ⟨-, x, y, r, ht, -, -, hl | ⟨u', r', hr, hu', hl⟩⟩ := word_nan_iff hc0 hw' hp'
        · rw [hl]; rfl
        · simp only [List.cons.injEq] at ht
          rw [← ht.2.2, List.cons.injEq] at hr
          exact absurd hr.1 a3
    · rw [if_neg a2]
      right
      refine ⟨fun b w hw hp => ?_, rfl⟩
      obtain ⟨-, x, y, r, ht, -, hy, -⟩ := word_nan_iff hc0 hw hp
      rw [d1, d2] at ht
      simp only [List.cons.injEq] at ht
      rw [← ht.2.1] at hy; exact a2 hy
  · rw [if_neg a1]
    right
    refine ⟨fun b w hw hp => ?_, rfl⟩
    obtain ⟨-, x, y, r, ht, hx, -⟩ := word_nan_iff hc0 hw hp
    rw [d1, List.cons.injEq] at ht
    rw [← ht.1] at hx; exact a1 hx

theorem eatInfLoop_spec {mem : List Nat} : ∀ (suffix : List Nat) (cp : Nat), Nul mem cp → 0 ∉ suffix →
    (eatInfLoop mem suffix cp = .ok none ∧ ∀ s, s <+: mem.drop cp → s.map lower ≠ suffix) ∨
    (eatInfLoop mem suffix cp = .ok (some (cp + suffix.length)) ∧ ∃ s R, mem.drop cp = s ++ R ∧ s.map lower = suffix) := by
  intro suffix
  induction suffix with
  | nil => intro cp h _; exact Or.inr ⟨rfl, [], _, rfl, rfl⟩
  | cons x xs ih =>
    intro cp h hx
    obtain ⟨c, hc⟩ := h.get
    have hd := drop_of_get hc
    unfold eatInfLoop
    rw [rd_of hc, ok_bind, toLower_eq]
    by_cases hl : lower c = x
    · rw [if_pos hl]
      have hc0 : c ≠ 0 := by
        rintro rfl
        apply hx
        rw [← hl, show lower 0 = 0 by decide]; simp
      rcases ih (cp + 1) (h.next hc hc0) (fun hm => hx (by simp [hm])) with ⟨h1, h2⟩ | ⟨h1, s, R, h2, h3⟩
      · refine Or.inl ⟨h1, ?_⟩
        intro s hs he
        cases s with
        | nil => simp at he
        | cons y ys =>
          rw [hd] at hs
          obtain ⟨q, hq⟩ := hs
          simp only [List.cons_append, List.cons.injEq] at hq
          rw [List.map_cons, List.cons.injEq] at he
          exact h2 ys ⟨q, hq.2⟩ he.2
      · refine Or.inr ⟨?_, c :: s, R, ?_, ?_⟩
        · rw [h1, List.length_cons, Nat.add_assoc, Nat.add_comm 1]
        · rw [hd, h2]; rfl
        · rw [List.map_cons, hl, h3]
    · rw [if_neg hl]
      refine Or.inl ⟨rfl, ?_⟩
      intro s hs he
      cases s with
      | nil => simp at he
      | cons y ys =>
        rw [hd] at hs
        obtain ⟨q, hq⟩ := hs
        simp only [List.cons_append, List.cons.injEq] at hq
        rw [List.map_cons, List.cons.injEq, hq.1] at he
        exact hl he.1

theorem word_inf_iff {w : List Nat} {b : Bool} {c0 : Nat} {t : List Nat} (hc : c0 = 105 ∨ c0 = 73) (h : Word b w) (hp : w <+: c0 :: t) :
    b = false ∧ ∃ x y r, t = x :: y :: r ∧ (x = 110 ∨ x = 78) ∧ (y = 102 ∨ y = 70) ∧
      (w.length = 3 ∨ ∃ d s r', r = d :: (s ++ r') ∧ (d = 105 ∨ d = 73) ∧ s.map lower = [110, 105, 116, 121] ∧ w.length = 8) := by
  obtain ⟨q, hq⟩ := hp
  cases h with
  | nan t' ht =>
    obtain ⟨a, b, c, rfl, h1, -⟩ := spells_nan.mp ht
    simp only [List.cons_append, List.cons.injEq] at hq
    omega
  | nanSeq t' u ht hu =>
    obtain ⟨a, b, c, rfl, h1, -⟩ := spells_nan.mp ht
    simp only [List.cons_append, List.cons.injEq] at hq
    omega
  | inf _ ht =>
    obtain ⟨a, b, c, rfl, h1, h2, h3⟩ := spells_inf.mp ht
    simp only [List.cons_append, List.nil_append, List.cons.injEq] at hq
    exact ⟨rfl, b, c, q, hq.2.symm, h2, h3, Or.inl rfl⟩
  | infinity _ ht =>
    obtain ⟨a, b, c, d, s, rfl, h1, h2, h3, h4, h5⟩ := spells_infinity.mp ht
    simp only [List.cons_append, List.cons.injEq] at hq
    refine ⟨rfl, b, c, _, hq.2.symm, h2, h3, Or.inr ⟨d, s, q, rfl, h4, h5, ?_⟩⟩
    have : s.length = 4 := by rw [← List.length_map (f := lower), h5]; rfl
    simp [this]

theorem eatInf_spec {mem : List Nat} {i c0 : Nat} (hc0 : c0 = 105 ∨ c0 = 73) (h : Nul mem i) :
    (∃ w, LongestWord false w (c0 :: mem.drop i) ∧ eatInf mem i = .ok (w.length - 1) ∧ 3 ≤ w.length) ∨
    (NoWord (c0 :: mem.drop i) ∧ eatInf mem i = .ok 0) := by
  obtain ⟨c1, h1⟩ := h.get
  have d1 := drop_of_get h1
  unfold eatInf
  rw [rd_of h1, ok_bind]
  have e1 : 'n'.toNat = 110 := by decide
  have e2 : 'N'.toNat = 78 := by decide
  have e3 : 'f'.toNat = 102 := by decide
  have e4 : 'F'.toNat = 70 := by decide
  have e5 : 'i'.toNat = 105 := by decide
  have e6 : 'I'.toNat = 73 := by decide
  have e7 : 't'.toNat = 116 := by decide
  have e8 : 'y'.toNat = 121 := by decide
  rw [e1, e2, e3, e4, e5, e6, e7, e8]
  by_cases a1 : c1 = 110 ∨ c1 = 78
  · rw [if_pos a1]
    have n1 := h.next h1 (by omega)
    obtain ⟨c2, h2⟩ := n1.get
    have d2 := drop_of_get h2
    rw [rd_of h2, ok_bind]
    by_cases a2 : c2 = 102 ∨ c2 = 70
    · rw [if_pos a2]
      have n2 := n1.next h2 (by omega)
      obtain ⟨c3, h3⟩ := n2.get
      have d3 := drop_of_get h3
      rw [rd_of h3, ok_bind, d1, d2, d3]
      have hsp : Spells "inf" [c0, c1, c2] := spells_inf.mpr ⟨_, _, _, rfl, hc0, a1, a2⟩
      left
      have short : (∀ s, s <+: mem.drop (i + 1 + 1 + 1) → (c3 = 105 ∨ c3 = 73) → s.map lower ≠ [110, 105, 116, 121]) →
          LongestWord false [c0, c1, c2] (c0 :: c1 :: c2 :: c3 :: mem.drop (i + 1 + 1 + 1)) := by
        intro hs
        refine ⟨.inf _ hsp, ⟨c3 :: mem.drop (i + 1 + 1 + 1), rfl⟩, ?_⟩
        intro b w' hw' hp'
        obtain ⟨-, x, y, r, ht, -, -, hl | ⟨d, s, r', hr, hd, hsl, hl⟩⟩ := word_inf_iff hc0 hw' hp'
        · rw [hl]; rfl
        · exfalso
          simp only [List.cons.injEq] at ht
          rw [← ht.2.2, List.cons.injEq] at hr
          exact hs s ⟨r', hr.2.symm⟩ (by rw [hr.1]; exact hd) hsl
      by_cases a3 : c3 = 105 ∨ c3 = 73
      · rw [if_pos a3]
        have n3 := n2.next h3 (by omega)
        rcases eatInfLoop_spec [110, 105, 116, 121] (i + 3) n3 (by decide) with ⟨g1, g2⟩ | ⟨g1, s, R, g2, g3⟩
        · rw [g1, ok_bind]
          exact ⟨[c0, c1, c2], short (fun s hs _ => g2 s hs), rfl, by simp⟩
        · rw [g1, ok_bind, show i + 1 + 1 + 1 = i + 3 by omega, g2]
          have hsl : s.length = 4 := by rw [← List.length_map (f := lower), g3]; rfl
          refine ⟨c0 :: c1 :: c2 :: c3 :: s, ⟨.infinity _ (spells_infinity.mpr ⟨_, _, _, _, _, rfl, hc0, a1, a2, a3, g3⟩),
            ⟨R, rfl⟩, ?_⟩, ?_, by simp⟩
          · intro b w' hw' hp'
            obtain ⟨-, x, y, r, ht, -, -, hl | ⟨d, s, r', hr, hd, -, hl⟩⟩ := word_inf_iff hc0 hw' hp' <;> (rw [hl]; simp [hsl])
          · show Except.ok (i + 3 + 4 - i) = _
            congr 1; simp [hsl]; omega
      · rw [if_neg a3]
        exact ⟨[c0, c1, c2], short (fun s _ h _ => a3 h), rfl, by simp⟩
    · rw [if_neg a2]
      right
      refine ⟨fun b w hw hp => ?_, rfl⟩
      obtain ⟨-, x, y, r, ht, -, hy, -⟩ := word_inf_iff hc0 hw hp
      rw [d1, d2] at ht
      simp only [List.cons.injEq] at ht
      rw [← ht.2.1] at hy; exact a2 hy
  · rw [if_neg a1]
    right
    refine ⟨fun b w hw hp => ?_, rfl⟩
    obtain ⟨-, x, y, r, ht, hx, -⟩ := word_inf_iff hc0 hw hp
    rw [d1, List.cons.injEq] at ht
    rw [← ht.1] at hx; exact a1 hx

end Floaxie
