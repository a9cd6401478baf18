import Verif.Spec.Alike
import Verif.Prop.Total

/-!
# C85: which characters matter
-/

namespace Floaxie

open Spec FloatType

variable {mem mem' : List Nat}

section

variable [Locale]

theorem rd_alike (h : List.Forall₂ (AlikeIn Locale.lower) mem mem') (i : Nat) :
    (∃ e, rd mem i = .error e ∧ rd mem' i = .error e) ∨
    ∃ c c', rd mem i = .ok c ∧ rd mem' i = .ok c' ∧ (c = c' ∨ (¬ MattersIn Locale.lower c ∧ ¬ MattersIn Locale.lower c')) := by
  unfold rd
  induction h generalizing i with
  | nil => exact .inl ⟨_, rfl, rfl⟩
  | @cons a b l l' hab _ ih =>
    cases i with
    | zero => exact .inr ⟨a, b, rfl, rfl, hab⟩
    | succ i => simpa using ih i

/-- The tests the code makes. -/
theorem alike_ite {α : Type} {p : Nat → Prop} [DecidablePred p] (hp : ∀ c, p c → MattersIn Locale.lower c) {c c' : Nat}
    (h : c = c' ∨ (¬ MattersIn Locale.lower c ∧ ¬ MattersIn Locale.lower c')) {x x' y y' : M α} (hx : x = x') (hy : y = y') :
    (if p c then x else y) = (if p c' then x' else y') := by
  subst hx hy
  rcases h with rfl | ⟨h1, h2⟩
  · rfl
  · rw [if_neg fun g => h1 (hp _ g), if_neg fun g => h2 (hp _ g)]

theorem bind_alike {α : Type} (h : List.Forall₂ (AlikeIn Locale.lower) mem mem') (i : Nat) {f g : Nat → M α}
    (hfg : ∀ c c', (c = c' ∨ (¬ MattersIn Locale.lower c ∧ ¬ MattersIn Locale.lower c')) → f c = g c') : (rd mem i >>= f) = (rd mem' i >>= g) := by
  rcases rd_alike h i with ⟨e, h1, h2⟩ | ⟨c, c', h1, h2, h3⟩
  · rw [h1, h2]; rfl
  · rw [h1, h2, ok_bind, ok_bind]; exact hfg c c' h3

theorem matters_two {c : Nat} {x y : Char} (hx : Matters x.toNat) (hy : Matters y.toNat) (h : c = x.toNat ∨ c = y.toNat) :
    MattersIn Locale.lower c := by
  rcases h with rfl | rfl
  · exact .inl hx
  · exact .inl hy

theorem eatNanLoop_alike (h : List.Forall₂ (AlikeIn Locale.lower) mem mem') : ∀ fuel cp, eatNanLoop mem fuel cp = eatNanLoop mem' fuel cp
  | 0, _ => rfl
  | fuel + 1, cp => by
    unfold eatNanLoop
    refine bind_alike h cp fun c c' hc => ?_
    rw [eatNanLoop_alike h fuel]
    refine alike_ite (p := fun c => ('0'.toNat ≤ c ∧ c ≤ '9'.toNat) ∨
       ('a'.toNat ≤ Locale.lower c ∧ Locale.lower c ≤ 'z'.toNat) ∨ c = '_'.toNat) ?_ hc rfl rfl
    rintro c (hd | hl | rfl)
    · exact .inl (.inl hd)
    · exact .inr hl
    · exact .inl (by decide)

theorem eatNan_alike (h : List.Forall₂ (AlikeIn Locale.lower) mem mem') (i : Nat) : eatNan mem i = eatNan mem' i := by
  unfold eatNan
  refine bind_alike h _ fun c c' hc => alike_ite (p := fun c => c = 'a'.toNat ∨ c = 'A'.toNat)
    (fun c => matters_two (by decide) (by decide)) hc ?_ rfl
  refine bind_alike h _ fun c c' hc => alike_ite (p := fun c => c = 'n'.toNat ∨ c = 'N'.toNat)
    (fun c => matters_two (by decide) (by decide)) hc ?_ rfl
  refine bind_alike h _ fun c c' hc => alike_ite (p := fun c => c = '('.toNat) (by rintro c rfl; exact .inl (by decide)) hc ?_ rfl
  rw [eatNanLoop_alike h, h.length_eq]
  congr 1
  funext cp
  exact bind_alike h _ fun c c' hc => alike_ite (p := fun c => c = ')'.toNat) (by rintro c rfl; exact .inl (by decide)) hc rfl rfl

theorem eatInfLoop_alike (h : List.Forall₂ (AlikeIn Locale.lower) mem mem') : ∀ (w : List Nat) (cp : Nat),
    (∀ x ∈ w, 'a'.toNat ≤ x ∧ x ≤ 'z'.toNat) → eatInfLoop mem w cp = eatInfLoop mem' w cp
  | [], _, _ => rfl
  | x :: xs, cp, hw => by
    unfold eatInfLoop
    refine bind_alike h cp fun c c' hc => ?_
    rw [eatInfLoop_alike h xs (cp + 1) fun y hy => hw y (List.mem_cons_of_mem _ hy)]
    refine alike_ite (p := fun c => Locale.lower c = x) ?_ hc rfl rfl
    rintro c rfl
    exact .inr (hw _ List.mem_cons_self)

theorem eatInf_alike (h : List.Forall₂ (AlikeIn Locale.lower) mem mem') (i : Nat) : eatInf mem i = eatInf mem' i := by
  unfold eatInf
  refine bind_alike h _ fun c c' hc => alike_ite (p := fun c => c = 'n'.toNat ∨ c = 'N'.toNat)
    (fun c => matters_two (by decide) (by decide)) hc ?_ rfl
  refine bind_alike h _ fun c c' hc => alike_ite (p := fun c => c = 'f'.toNat ∨ c = 'F'.toNat)
    (fun c => matters_two (by decide) (by decide)) hc ?_ rfl
  refine bind_alike h _ fun c c' hc => alike_ite (p := fun c => c = 'i'.toNat ∨ c = 'I'.toNat)
    (fun c => matters_two (by decide) (by decide)) hc ?_ rfl
  rw [eatInfLoop_alike h _ _ (by decide)]

theorem fractionDigits_alike (h : List.Forall₂ (AlikeIn Locale.lower) mem mem') : ∀ n pos, fractionDigits mem n pos = fractionDigits mem' n pos
  | 0, _ => rfl
  | n + 1, pos => by
    unfold fractionDigits
    refine bind_alike h pos fun c c' hc => ?_
    rw [fractionDigits_alike h n]
    rcases hc with rfl | ⟨h1, h2⟩
    · rfl
    · rw [if_neg fun g => h1 (.inl (.inl g)), if_neg fun g => h2 (.inl (.inl g))]

theorem pushDigit_alike (h : List.Forall₂ (AlikeIn Locale.lower) mem mem') (str kappa c : Nat) (st : PState) :
    pushDigit mem str kappa c st = pushDigit mem' str kappa c st := by
  unfold pushDigit extractFractionDigits
  simp only [fractionDigits_alike h]

theorem parseSwitch_alike (h : List.Forall₂ (AlikeIn Locale.lower) mem mem') (T : FloatType) (str : Nat) (st : PState) {c c' : Nat}
    (hc : c = c' ∨ (¬ MattersIn Locale.lower c ∧ ¬ MattersIn Locale.lower c')) : parseSwitch T mem str c st = parseSwitch T mem' str c' st := by
  rcases hc with rfl | ⟨h1, h2⟩
  · unfold parseSwitch
    simp only [pushDigit_alike h, eatNan_alike h, eatInf_alike h]
  · have key : ∀ (m : List Nat) (c : Nat), ¬ MattersIn Locale.lower c → parseSwitch T m str c st = pure { st with stop := true } := by
      intro m c hc
      unfold parseSwitch
      rw [if_neg (by rintro rfl; exact hc (.inl (by decide))), if_neg fun g => hc (.inl (.inl ⟨le_trans (by decide) g.1, g.2⟩)),
        if_neg (by rintro rfl; exact hc (.inl (by decide))), if_neg fun g => hc (matters_two (by decide) (by decide) g),
        if_neg fun g => hc (matters_two (by decide) (by decide) g), if_neg fun g => hc (matters_two (by decide) (by decide) g.1)]
    rw [key _ _ h1, key _ _ h2]

theorem parseLoop_alike (h : List.Forall₂ (AlikeIn Locale.lower) mem mem') (T : FloatType) (str : Nat) : ∀ fuel st,
    parseLoop T mem str fuel st = parseLoop T mem' str fuel st
  | 0, _ => rfl
  | fuel + 1, st => by
    have hs : parseStep T mem str st = parseStep T mem' str st := by
      unfold parseStep
      refine bind_alike h _ fun c c' hc => ?_
      rw [parseSwitch_alike h T str st hc]
    unfold parseLoop
    rw [hs]
    simp only [parseLoop_alike h T str fuel]

theorem parseDigits_alike (h : List.Forall₂ (AlikeIn Locale.lower) mem mem') (T : FloatType) (str : Nat) :
    parseDigits T mem str = parseDigits T mem' str := by
  unfold parseDigits
  rw [parseLoop_alike h]

theorem parseExponent_alike (h : List.Forall₂ (AlikeIn Locale.lower) mem mem') (str : Nat) :
    parseExponent mem str = parseExponent mem' str := by
  unfold parseExponent
  refine bind_alike h _ fun c c' hc => ?_
  rw [parseDigits_alike h]
  rcases hc with rfl | ⟨h1, h2⟩
  · rfl
  · have key : ∀ c, ¬ MattersIn Locale.lower c → c ≠ 'e'.toNat ∧ c ≠ 'E'.toNat := fun c hc =>
      ⟨by rintro rfl; exact hc (.inl (by decide)), by rintro rfl; exact hc (.inl (by decide))⟩
    rw [if_pos (key _ h1), if_pos (key _ h2)]

theorem krosh_alike (h : List.Forall₂ (AlikeIn Locale.lower) mem mem') (T : FloatType) (str : Nat) : krosh T mem str = krosh T mem' str := by
  unfold krosh parseMantissa
  rw [parseDigits_alike h]
  simp only [parseExponent_alike h]

/-- **C85, in any locale:** to the characters that matter come those which `std::tolower` takes to the letters a to z;
all others are alike. -/
theorem C85_locale (T : FloatType) (fb : Fallback) (errno : Nat) (mem mem' : List Nat)
    (h : List.Forall₂ (AlikeIn Locale.lower) mem mem') (str : Nat) (hfb : fb mem str errno = fb mem' str errno) :
    atof T fb errno mem str = atof T fb errno mem' str := by
  unfold atof
  rw [krosh_alike h, hfb]

end

theorem toLower_matters {c : Nat} (h : 'a'.toNat ≤ toLower c ∧ toLower c ≤ 'z'.toNat) : Matters c := by
  unfold toLower at h
  unfold Matters
  split_ifs at h with hc
  · exact .inr (.inr (.inl hc))
  · exact .inr (.inl h)

/-- **C85.** All characters other than digits, letters, point, signs, underscore and
parentheses are alike to `atof`: replacing some of them by others of them - NUL, white space, other
punctuation, characters outside of ASCII - changes nothing (unless the fallback makes
a difference), not even an undefined call. -/
theorem C85_alike (T : FloatType) (fb : Fallback) (errno : Nat) (mem mem' : List Nat) (h : List.Forall₂ Alike mem mem')
    (str : Nat) (hfb : fb mem str errno = fb mem' str errno) : atof T fb errno mem str = atof T fb errno mem' str := by
  refine C85_locale T fb errno mem mem' (h.imp fun c c' hc => ?_) str hfb
  have key : ∀ c, ¬ Matters c → ¬ MattersIn (Locale.lower (self := cLocale)) c :=
    fun c hc hm => hc (hm.elim id toLower_matters)
  exact hc.imp id fun hc => ⟨key _ hc.1, key _ hc.2⟩

theorem atof_end_of_krosh (T : FloatType) (fb : Fallback) (errno : Nat) {mem : List Nat} {k : KroshResult}
    (h : krosh T mem 0 = .ok k) (ha : k.isAccurate = true) : ∃ r, atof T fb errno mem 0 = .ok r ∧ r.strEnd = k.strEnd := by
  unfold atof
  rw [h, ok_bind, if_pos ha]
  split_ifs
  · exact ⟨_, rfl, rfl⟩
  · exact ⟨_, rfl, rfl⟩

/-- A text around the character that shows that it matters. -/
def around (c : Nat) : List Nat × List Nat :=
  if c = '.'.toNat then (['1'.toNat], ['5'.toNat, 0])
  else if c = '+'.toNat ∨ c = '-'.toNat then ([], ['1'.toNat, 0])
  else if c = '('.toNat then (chars "nan", chars "a)" ++ [0])
  else if c = ')'.toNat then (chars "nan(a", [0])
  else (chars "nan(", chars ")" ++ [0])

/-- What `krosh` does with the two texts. -/
def differ (T : FloatType) (c : Nat) : Bool :=
  match krosh T ((around c).1 ++ c :: (around c).2) 0, krosh T ((around c).1 ++ ' '.toNat :: (around c).2) 0 with
  | .ok k, .ok k' => k.isAccurate && k'.isAccurate && k.strEnd != k'.strEnd
  | _, _ => false

theorem matters_differ : ∀ (T : FloatType), ∀ c < 123, Matters c → differ T c = true := by
  intro T
  cases T <;> decide +kernel

/-- **C85, all the others matter.** For each of them there is a text in which replacing it by a blank
changes where reading ends. -/
theorem C85_matter (T : FloatType) (fb : Fallback) (errno c : Nat) (hc : Matters c) :
    ∃ pre post r r', atof T fb errno (pre ++ c :: post) 0 = .ok r ∧ atof T fb errno (pre ++ ' '.toNat :: post) 0 = .ok r' ∧
      r.strEnd ≠ r'.strEnd := by
  have hlt : c < 123 := by
    unfold Matters at hc
    simp only [Char.reduceToNat] at hc
    omega
  have h := matters_differ T c hlt hc
  unfold differ at h
  cases h1 : krosh T ((around c).1 ++ c :: (around c).2) 0 with
  | error e => rw [h1] at h; cases h
  | ok k =>
    cases h2 : krosh T ((around c).1 ++ ' '.toNat :: (around c).2) 0 with
    | error e => rw [h1, h2] at h; cases h
    | ok k' =>
      rw [h1, h2] at h
      simp only [Bool.and_eq_true, bne_iff_ne, ne_eq] at h
      obtain ⟨r, a1, a2⟩ := atof_end_of_krosh T fb errno h1 h.1.1
      obtain ⟨r', b1, b2⟩ := atof_end_of_krosh T fb errno h2 h.1.2
      exact ⟨_, _, r, r', a1, b1, by rw [a2, b2]; exact h.2⟩

/-- A blank, a comma, a NUL and a byte of UTF-8 after "2.5" are all the same. -/
example (fb : Fallback) (c c' : Nat) (hc : c ∈ [0, 9, 10, 32, 44, 59, 0xC3]) (hc' : c' ∈ [0, 9, 10, 32, 44, 59, 0xC3])
    (hfb : fb (chars "2.5" ++ [c]) 0 0 = fb (chars "2.5" ++ [c']) 0 0) :
    atof .double fb 0 (chars "2.5" ++ [c]) 0 = atof .double fb 0 (chars "2.5" ++ [c']) 0 := by
  refine C85_alike .double fb 0 _ _ ?_ 0 hfb
  have : Alike c c' := by
    have key : ∀ c ∈ [0, 9, 10, 32, 44, 59, 0xC3], ¬ Matters c := by decide
    exact .inr ⟨key c hc, key c' hc'⟩
  exact .cons (.inl rfl) (.cons (.inl rfl) (.cons (.inl rfl) (.cons this .nil)))

/-- A locale that takes 0xE9 to e. -/
@[reducible] def accentLocale : Locale := ⟨fun c => if c = 0xE9 then 'e'.toNat else toLower c⟩

/-- **C85, the locale's letters do matter:** in that locale, but not in the "C" locale, 0xE9 and a blank are not alike. -/
theorem C85_locale_matter (T : FloatType) (fb : Fallback) (errno : Nat) :
    (∃ r r', @atof accentLocale T fb errno (chars "nan(" ++ 0xE9 :: chars ")\x00") 0 = .ok r ∧
      @atof accentLocale T fb errno (chars "nan(" ++ ' '.toNat :: chars ")\x00") 0 = .ok r' ∧ r.strEnd ≠ r'.strEnd) ∧
    Alike 0xE9 ' '.toNat ∧ ¬ AlikeIn accentLocale.lower 0xE9 ' '.toNat := by
  have h1 : @krosh accentLocale T (chars "nan(" ++ 0xE9 :: chars ")\x00") 0 = .ok ⟨T.qnanBits, 6, .success, true⟩ := by
    cases T <;> decide +kernel
  have h2 : @krosh accentLocale T (chars "nan(" ++ ' '.toNat :: chars ")\x00") 0 = .ok ⟨T.qnanBits, 3, .success, true⟩ := by
    cases T <;> decide +kernel
  refine ⟨⟨⟨T.qnanBits, .success, 6, errno, false⟩, ⟨T.qnanBits, .success, 3, errno, false⟩, ?_, ?_, by simp⟩, by decide, ?_⟩
  · unfold atof; rw [h1, ok_bind]; rfl
  · unfold atof; rw [h2, ok_bind]; rfl
  · rintro (h | h)
    · exact absurd h (by decide)
    · exact h.1 (.inr (by decide))

end Floaxie
