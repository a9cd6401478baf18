import Mathlib.Data.List.Basic
import Verif.Spec.Numeral

/-! # The text of a numeral determines the numeral -/

namespace Floaxie

open Spec

/-- Code unit of a decimal digit. -/
def IsDig (c : Nat) : Prop := '0'.toNat ≤ c ∧ c ≤ '9'.toNat

theorem isDig_digitChar (d : Fin 10) : IsDig (digitChar d) := by
  unfold IsDig digitChar
  have := d.isLt
  constructor
  · omega
  · show 48 + d.val ≤ 57; omega

theorem digitChar_inj {a b : Fin 10} (h : digitChar a = digitChar b) : a = b := by
  unfold digitChar at h
  exact Fin.ext (by omega)

/-- Two digit strings followed by something that does not start with a digit. -/
theorem digits_split : ∀ (a b : List (Fin 10)) (r s : List Nat),
    (∀ c ∈ r.head?, ¬ IsDig c) → (∀ c ∈ s.head?, ¬ IsDig c) →
    a.map digitChar ++ r = b.map digitChar ++ s → a = b ∧ r = s := by
  intro a
  induction a with
  | nil =>
    intro b r s hr hs h
    cases b with
    | nil => exact ⟨rfl, by simpa using h⟩
    | cons b bs =>
      exfalso
      simp only [List.map_nil, List.nil_append, List.map_cons, List.cons_append] at h
      apply hr (digitChar b) (by rw [h]; simp) (isDig_digitChar b)
  | cons a as ih =>
    intro b r s hr hs h
    cases b with
    | nil =>
      exfalso
      simp only [List.map_nil, List.nil_append, List.map_cons, List.cons_append] at h
      apply hs (digitChar a) (by rw [← h]; simp) (isDig_digitChar a)
    | cons b bs =>
      simp only [List.map_cons, List.cons_append, List.cons.injEq] at h
      obtain ⟨h1, h2⟩ := ih bs r s hr hs h.2
      exact ⟨by rw [digitChar_inj h.1, h1], h2⟩

/-- Digits at the end of the text. -/
theorem digits_end (a b : List (Fin 10)) (h : a.map digitChar = b.map digitChar) : a = b := by
  have := digits_split a b [] [] (by simp) (by simp) (by simpa using h)
  exact this.1

theorem sign_split (s t : Option Bool) (r u : List Nat)
    (hr : ∀ c ∈ r.head?, c ≠ '+'.toNat ∧ c ≠ '-'.toNat)
    (hu : ∀ c ∈ u.head?, c ≠ '+'.toNat ∧ c ≠ '-'.toNat)
    (h : signText s ++ r = signText t ++ u) : s = t ∧ r = u := by
  rcases s with _ | _ | _ <;> rcases t with _ | _ | _ <;> simp [signText] at h
  · exact ⟨rfl, h⟩
  · subst h; simp at hr
  · subst h; simp at hr
  · subst h; simp at hu
  · exact ⟨rfl, h⟩
  · subst h; simp at hu
  · exact ⟨rfl, h⟩

theorem digitChar_ne_sign (d : Fin 10) : digitChar d ≠ '+'.toNat ∧ digitChar d ≠ '-'.toNat := by
  unfold digitChar
  constructor <;> simp <;> omega

theorem head_digits {ds : List (Fin 10)} {c : Nat} (h : c ∈ (ds.map digitChar).head?) :
    c ≠ '+'.toNat ∧ c ≠ '-'.toNat := by
  cases ds with
  | nil => simp at h
  | cons d ds =>
    simp at h; subst h; exact digitChar_ne_sign d

theorem exp_text_inj (e f : ExpPart) (h : e.text = f.text) : e = f := by
  obtain ⟨u, s, d⟩ := e
  obtain ⟨v, t, g⟩ := f
  unfold ExpPart.text at h
  simp only [List.cons.injEq] at h
  obtain ⟨h1, h2⟩ := h
  obtain ⟨h3, h4⟩ := sign_split s t _ _ (fun c hc => head_digits hc) (fun c hc => head_digits hc) h2
  have h5 := digits_end _ _ h4
  have h6 : u = v := by cases u <;> cases v <;> simp_all
  rw [h3, h5, h6]

theorem expText_head (n : Numeral) : ∀ c ∈ n.expText.head?, c = 'e'.toNat ∨ c = 'E'.toNat := by
  intro c hc
  unfold Numeral.expText at hc
  split at hc
  · simp at hc
  · unfold ExpPart.text at hc
    simp only [List.head?_cons, Option.mem_some_iff] at hc
    subst hc; split_ifs <;> simp

/-- What follows the digits before the point. -/
def afterInt (n : Numeral) : List Nat :=
  (match n.frac with
   | none => []
   | some ds => '.'.toNat :: ds.map digitChar) ++ n.expText

theorem text_eq (n : Numeral) : n.text = signText n.sign ++ (n.int.map digitChar ++ afterInt n) := by
  obtain ⟨s, i, f, e⟩ := n
  cases f <;> simp [Numeral.text, Numeral.mantText, afterInt, Numeral.expText]

theorem afterInt_head (n : Numeral) :
    ∀ c ∈ (afterInt n).head?, c = '.'.toNat ∨ c = 'e'.toNat ∨ c = 'E'.toNat := by
  intro c hc
  unfold afterInt at hc
  split at hc
  · exact Or.inr (expText_head n c (by simpa using hc))
  · simp at hc; left; exact hc.symm

theorem e_not_dig : ∀ c, c = 'e'.toNat ∨ c = 'E'.toNat → ¬ IsDig c := by
  rintro c (rfl | rfl) <;> (unfold IsDig; decide)

theorem numeral_text_inj (n m : Numeral) (h : n.text = m.text) : n = m := by
  rw [text_eq, text_eq] at h
  have hh : ∀ n : Numeral, ∀ c ∈ (n.int.map digitChar ++ afterInt n).head?,
      c ≠ '+'.toNat ∧ c ≠ '-'.toNat := by
    intro n c hc
    cases hi : n.int with
    | nil =>
      rw [hi] at hc
      rcases afterInt_head n c (by simpa using hc) with rfl | rfl | rfl <;> decide
    | cons d ds =>
      rw [hi] at hc
      simp at hc; subst hc; exact digitChar_ne_sign d
  obtain ⟨h1, h2⟩ := sign_split _ _ _ _ (hh n) (hh m) h
  have ha : ∀ n : Numeral, ∀ c ∈ (afterInt n).head?, ¬ IsDig c := by
    intro n c hc
    rcases afterInt_head n c hc with rfl | h
    · unfold IsDig; decide
    · exact e_not_dig c h
  obtain ⟨h3, h4⟩ := digits_split _ _ _ _ (ha n) (ha m) h2
  obtain ⟨s, i, f, e⟩ := n
  obtain ⟨s', i', f', e'⟩ := m
  simp only at h1 h3
  subst h1 h3
  have hx : ∀ n : Numeral, ∀ c ∈ n.expText.head?, ¬ IsDig c := fun n c hc =>
    e_not_dig c (expText_head n c hc)
  have hfe : f = f' ∧ Numeral.expText ⟨s, i, f, e⟩ = Numeral.expText ⟨s, i, f', e'⟩ := by
    unfold afterInt at h4
    rcases f with _ | f <;> rcases f' with _ | f'
    · exact ⟨rfl, by simpa using h4⟩
    · exfalso
      simp only [List.nil_append, List.cons_append] at h4
      have := expText_head ⟨s, i, none, e⟩ '.'.toNat (by rw [h4]; simp)
      revert this; decide
    · exfalso
      simp only [List.nil_append, List.cons_append] at h4
      have := expText_head ⟨s, i, none, e'⟩ '.'.toNat (by rw [← h4]; simp)
      revert this; decide
    · simp only [List.cons_append, List.cons.injEq, true_and] at h4
      obtain ⟨h5, h6⟩ := digits_split _ _ _ _ (hx _) (hx _) h4
      exact ⟨by rw [h5], h6⟩
  obtain ⟨h5, h6⟩ := hfe
  subst h5
  unfold Numeral.expText at h6
  rcases e with _ | e <;> rcases e' with _ | e'
  · rfl
  · simp [ExpPart.text] at h6
  · simp [ExpPart.text] at h6
  · simp only at h6
    rw [exp_text_inj _ _ h6]

end Floaxie
