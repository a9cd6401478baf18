import Verif.Model.CharType
import Verif.Prop.Total
import Verif.Prop.Ftoa

/-!
# C87: character types

`char` signed or unsigned, `wchar_t` of 16 or 32 bits, signed or unsigned: `atof` of `Model/CharType.lean`, with the
conversions of the language, does what `atof` of `Model/Atof.lean` does with the bit patterns of the characters.
-/

namespace Floaxie

open Spec FloatType

/-- The bit pattern of a character. -/
def CharKind.code (k : CharKind) (c : Int) : Nat := (c % 2 ^ k.w).toNat

/-- A character and its pattern: equal, or both outside of ASCII. -/
theorem code_cases {k : CharKind} (hk : k.Valid) {c : Int} (hc : k.InRange c) :
    ((k.code c : Int) = c ∧ k.code c < 128) ∨ (128 ≤ k.code c ∧ (c < 0 ∨ 128 ≤ c)) := by
  obtain ⟨w, s⟩ := k
  unfold CharKind.code
  unfold CharKind.InRange at hc
  unfold CharKind.Valid at hk
  simp only at hc hk ⊢
  rcases hk with rfl | rfl | rfl <;> cases s <;> norm_num at hc ⊢ <;> omega

theorem rdC_eq (k : CharKind) (mem : List Int) (i : Nat) :
    (∃ e, rdC mem i = .error e ∧ rd (mem.map k.code) i = .error e) ∨
    ∃ c ∈ mem, rdC mem i = .ok c ∧ rd (mem.map k.code) i = .ok (k.code c) := by
  unfold rdC rd
  rw [List.getElem?_map]
  cases h : mem[i]? with
  | none => exact .inl ⟨_, rfl, rfl⟩
  | some c => exact .inr ⟨c, List.mem_of_getElem? h, rfl, rfl⟩

theorem bindC {α : Type} (k : CharKind) (mem : List Int) (i : Nat) {f : Int → M α} {g : Nat → M α}
    (h : ∀ c ∈ mem, f c = g (k.code c)) : (rdC mem i >>= f) = (rd (mem.map k.code) i >>= g) := by
  rcases rdC_eq k mem i with ⟨e, h1, h2⟩ | ⟨c, hc, h1, h2⟩
  · rw [h1, h2]; rfl
  · rw [h1, h2, ok_bind, ok_bind]; exact h c hc

theorem iteC {α : Type} {p q : Prop} [Decidable p] [Decidable q] (h : p ↔ q) {x x' y y' : α} (hx : x = x') (hy : y = y') :
    (if p then x else y) = (if q then x' else y') := by
  subst hx hy
  by_cases hp : p
  · rw [if_pos hp, if_pos (h.mp hp)]
  · rw [if_neg hp, if_neg fun hq => hp (h.mpr hq)]

/-- The assumptions on type, locale and memory. -/
structure Chars (k : CharKind) (low : Int → Int) (L : Locale) (mem : List Int) : Prop where
  valid : k.Valid
  range : ∀ c ∈ mem, k.InRange c
  lowRange : ∀ c ∈ mem, k.InRange (low c)
  lower : ∀ c ∈ mem, L.lower (k.code c) = k.code (low c)
  above : ∀ c ∈ mem, -2 ^ 31 + 48 ≤ c

section

variable {k : CharKind} {low : Int → Int} {L : Locale} {mem : List Int}

theorem Chars.cc (h : Chars k low L mem) {c : Int} (hc : c ∈ mem) :
    ((k.code c : Int) = c ∧ k.code c < 128) ∨ (128 ≤ k.code c ∧ (c < 0 ∨ 128 ≤ c)) := code_cases h.valid (h.range c hc)

theorem Chars.cl (h : Chars k low L mem) {c : Int} (hc : c ∈ mem) :
    ((L.lower (k.code c) : Int) = low c ∧ L.lower (k.code c) < 128) ∨ (128 ≤ L.lower (k.code c) ∧ (low c < 0 ∨ 128 ≤ low c)) := by
  rw [h.lower c hc]
  exact code_cases h.valid (h.lowRange c hc)

theorem subC {k : CharKind} (hk : k.Valid) {c : Int} (hc : k.InRange c) (hlo : -2 ^ 31 + 48 ≤ c) :
    ∃ d : Int, k.sub c (lit '0') = .ok d ∧ (0 ≤ d ∧ d ≤ 9 ↔ '0'.toNat ≤ k.code c ∧ k.code c ≤ '9'.toNat) ∧
      (0 ≤ d ∧ d ≤ 9 → (d % 256).toNat = k.code c - '0'.toNat) := by
  have hcc := code_cases hk hc
  generalize hn : k.code c = n at hcc ⊢
  obtain ⟨w, s⟩ := k
  unfold CharKind.InRange at hc
  unfold CharKind.Valid at hk
  unfold CharKind.sub
  simp only at hc hk ⊢
  simp only [lit, Char.reduceToNat]
  by_cases h : (!s && w == 32) = true
  · rw [if_pos h]
    simp only [Bool.and_eq_true, Bool.not_eq_eq_eq_not, Bool.not_true, beq_iff_eq] at h
    obtain ⟨rfl, rfl⟩ := h
    norm_num at hc
    exact ⟨(c - ((48 : Nat) : Int)) % 2 ^ 32, rfl, by norm_num; omega, by norm_num; omega⟩
  · rw [if_neg h]
    have hhi : c < 2 ^ 31 := by
      rcases hk with rfl | rfl | rfl <;> cases s <;> norm_num at hc h <;> norm_num <;> omega
    norm_num at hlo
    have : chkInt (c - (48 : Nat)) = .ok (c - (48 : Nat)) := by
      unfold chkInt
      rw [if_pos (by norm_num; omega)]
    exact ⟨_, this, by omega, by omega⟩

theorem eatNanLoopC_eq (h : Chars k low L mem) : ∀ fuel cp,
    eatNanLoopC low mem fuel cp = @eatNanLoop L (mem.map k.code) fuel cp
  | 0, _ => rfl
  | fuel + 1, cp => by
    unfold eatNanLoopC eatNanLoop
    refine bindC k mem cp fun c hc => iteC ?_ (eatNanLoopC_eq h fuel (cp + 1)) rfl
    have h1 := h.cc hc
    have h2 := h.cl hc
    simp only [lit, Char.reduceToNat]
    omega

theorem eatNanC_eq (h : Chars k low L mem) (i : Nat) : eatNanC low mem i = @eatNan L (mem.map k.code) i := by
  unfold eatNanC eatNan
  refine bindC k mem _ fun c hc => iteC ?_ ?_ rfl
  · have h1 := h.cc hc; simp only [lit, Char.reduceToNat]; omega
  refine bindC k mem _ fun c hc => iteC ?_ ?_ rfl
  · have h1 := h.cc hc; simp only [lit, Char.reduceToNat]; omega
  refine bindC k mem _ fun c hc => iteC ?_ ?_ rfl
  · have h1 := h.cc hc; simp only [lit, Char.reduceToNat]; omega
  rw [eatNanLoopC_eq h, List.length_map]
  congr 1
  funext cp
  refine bindC k mem _ fun c hc => iteC ?_ rfl rfl
  have h1 := h.cc hc; simp only [lit, Char.reduceToNat]; omega

theorem eatInfLoopC_eq (h : Chars k low L mem) : ∀ (w : List Nat) (cp : Nat), (∀ x ∈ w, x < 128) →
    eatInfLoopC low mem (w.map Int.ofNat) cp = @eatInfLoop L (mem.map k.code) w cp
  | [], _, _ => rfl
  | x :: xs, cp, hw => by
    rw [List.map_cons]
    unfold eatInfLoopC eatInfLoop
    refine bindC k mem cp fun c hc =>
      iteC ?_ (eatInfLoopC_eq h xs (cp + 1) fun y hy => hw y (List.mem_cons_of_mem _ hy)) rfl
    have h2 := h.cl hc
    have := hw x List.mem_cons_self
    rw [Int.ofNat_eq_natCast]
    omega

theorem eatInfC_eq (h : Chars k low L mem) (i : Nat) : eatInfC low mem i = @eatInf L (mem.map k.code) i := by
  unfold eatInfC eatInf
  refine bindC k mem _ fun c hc => iteC ?_ ?_ rfl
  · have h1 := h.cc hc; simp only [lit, Char.reduceToNat]; omega
  refine bindC k mem _ fun c hc => iteC ?_ ?_ rfl
  · have h1 := h.cc hc; simp only [lit, Char.reduceToNat]; omega
  refine bindC k mem _ fun c hc => iteC ?_ ?_ rfl
  · have h1 := h.cc hc; simp only [lit, Char.reduceToNat]; omega
  have := eatInfLoopC_eq h ['n'.toNat, 'i'.toNat, 't'.toNat, 'y'.toNat] (i + 3) (by decide)
  rw [← this]
  rfl

theorem fractionDigitsC_eq (h : Chars k low L mem) : ∀ n pos,
    fractionDigitsC k mem n pos = fractionDigits (mem.map k.code) n pos
  | 0, _ => rfl
  | n + 1, pos => by
    unfold fractionDigitsC fractionDigits
    refine bindC k mem pos fun c hc => ?_
    obtain ⟨d, h1, h2, h3⟩ := subC h.valid (h.range c hc) (h.above c hc)
    rw [h1, ok_bind, fractionDigitsC_eq h n]
    by_cases hd : 0 ≤ d ∧ d ≤ 9
    · rw [if_pos hd, if_pos (h2.mp hd), h3 hd]
    · rw [if_neg hd, if_neg fun g => hd (h2.mpr g)]

theorem pushDigitC_eq (h : Chars k low L mem) (str kappa : Nat) {c : Int} (hc : c ∈ mem)
    (hd : '0'.toNat ≤ k.code c ∧ k.code c ≤ '9'.toNat) (st : PState) :
    pushDigitC k mem str kappa c st = pushDigit (mem.map k.code) str kappa (k.code c) st := by
  obtain ⟨d, h1, h2, h3⟩ := subC h.valid (h.range c hc) (h.above c hc)
  unfold pushDigitC pushDigit extractFractionDigitsC extractFractionDigits
  simp only [fractionDigitsC_eq h, h1, ok_bind, h3 (h2.mpr hd)]

theorem sub_minus {k : CharKind} {c : Int} (h : c = lit '-' ∨ c = lit '+') :
    ∃ d, k.sub (lit '-') c = .ok d ∧ (d ≠ 0 ↔ c = lit '+') := by
  unfold CharKind.sub
  rcases h with rfl | rfl
  · refine ⟨0, ?_, by decide⟩
    split_ifs <;> rfl
  · refine ⟨2, ?_, by decide⟩
    split_ifs <;> rfl

theorem parseSwitchC_eq (h : Chars k low L mem) (T : FloatType) (str : Nat) (st : PState) {c : Int} (hc : c ∈ mem) :
    parseSwitchC k low T mem str c st = @parseSwitch L T (mem.map k.code) str (k.code c) st := by
  have hcc := h.cc hc
  unfold parseSwitchC parseSwitch
  simp only [eatNanC_eq h, eatInfC_eq h]
  refine iteC (by simp only [lit, Char.reduceToNat]; omega) rfl ?_
  by_cases hd : '1'.toNat ≤ k.code c ∧ k.code c ≤ '9'.toNat
  · rw [if_pos hd, if_pos (by simp only [lit, Char.reduceToNat] at hd ⊢; omega)]
    exact pushDigitC_eq h _ _ hc ⟨le_trans (by decide) hd.1, hd.2⟩ _
  · rw [if_neg hd, if_neg (by simp only [lit, Char.reduceToNat] at hd ⊢; omega)]
    refine iteC (by simp only [lit, Char.reduceToNat]; omega) rfl ?_
    refine iteC (by simp only [lit, Char.reduceToNat]; omega) rfl ?_
    refine iteC (by simp only [lit, Char.reduceToNat]; omega) rfl ?_
    by_cases hs : (c = lit '-' ∨ c = lit '+') ∧ st.pos = 0
    · rw [if_pos hs, if_pos (by simp only [lit, Char.reduceToNat] at hs ⊢; omega)]
      obtain ⟨d, h1, h2⟩ := sub_minus (k := k) hs.1
      rw [h1, ok_bind]
      have : decide (d ≠ 0) = decide ('-'.toNat ≠ k.code c) := by
        rw [decide_eq_decide, h2]
        have := hs.1
        simp only [lit, Char.reduceToNat] at this ⊢
        omega
      rw [this]
    · rw [if_neg hs, if_neg (by simp only [lit, Char.reduceToNat] at hs ⊢; omega)]

theorem parseLoopC_eq (h : Chars k low L mem) (T : FloatType) (str : Nat) : ∀ fuel st,
    parseLoopC k low T mem str fuel st = @parseLoop L T (mem.map k.code) str fuel st
  | 0, _ => rfl
  | fuel + 1, st => by
    have hs : parseStepC k low T mem str st = @parseStep L T (mem.map k.code) str st := by
      unfold parseStepC parseStep
      refine bindC k mem _ fun c hc => ?_
      rw [parseSwitchC_eq h T str st hc]
    unfold parseLoopC parseLoop
    rw [hs]
    simp only [parseLoopC_eq h T str fuel]

theorem parseDigitsC_eq (h : Chars k low L mem) (T : FloatType) (str : Nat) :
    parseDigitsC k low T mem str = @parseDigits L T (mem.map k.code) str := by
  unfold parseDigitsC parseDigits
  rw [parseLoopC_eq h]

theorem parseExponentC_eq (h : Chars k low L mem) (str : Nat) :
    parseExponentC k low mem str = @parseExponent L (mem.map k.code) str := by
  unfold parseExponentC parseExponent
  refine bindC k mem _ fun c hc => ?_
  rw [parseDigitsC_eq h]
  have h1 := h.cc hc
  exact iteC (by simp only [lit, Char.reduceToNat]; omega) rfl rfl

theorem kroshC_eq (h : Chars k low L mem) (T : FloatType) (str : Nat) :
    kroshC k low T mem str = @krosh L T (mem.map k.code) str := by
  have hm : parseMantissaC k low T mem str = @parseMantissa L T (mem.map k.code) str := by
    unfold parseMantissaC parseMantissa
    rw [parseDigitsC_eq h]
  unfold kroshC krosh
  rw [hm]
  refine bind_congr fun mp => ?_
  rw [parseExponentC_eq h]
  obtain ⟨v, K, e, sp, sg⟩ := mp
  by_cases hs : sp = .no ∧ v.f ≠ 0
  · rw [if_pos hs, if_pos hs]
  · rw [if_neg hs, if_neg hs]
    cases sp <;> rfl

end

/-- **C87.** For every character type (8, 16 or 32 bits, signed or unsigned), locale and memory: `atof` on the
characters is `atof` on their bit patterns. For signed 32 bit characters the lowest 48 values are excluded. -/
theorem C87_atof (k : CharKind) (hk : k.Valid) (low : Int → Int) (L : Locale) (T : FloatType)
    (fb : List Int → Nat → Nat → FallbackResult) (fb' : Fallback) (errno : Nat) (mem : List Int) (str : Nat)
    (hmem : ∀ c ∈ mem, k.InRange c ∧ -2 ^ 31 + 48 ≤ c)
    (hlow : ∀ c ∈ mem, k.InRange (low c) ∧ L.lower (k.code c) = k.code (low c))
    (hfb : fb' (mem.map k.code) str errno = fb mem str errno) :
    atofC k low T fb errno mem str = @atof L T fb' errno (mem.map k.code) str := by
  have h : Chars k low L mem := ⟨hk, fun c hc => (hmem c hc).1, fun c hc => (hlow c hc).1, fun c hc => (hlow c hc).2,
    fun c hc => (hmem c hc).2⟩
  unfold atofC atof
  rw [kroshC_eq h, hfb]

/-- The "C" locale for every character type. -/
theorem toLowerC_code (k : CharKind) (hk : k.Valid) (c : Int) (hc : k.InRange c) :
    k.InRange (toLowerC c) ∧ toLower (k.code c) = k.code (toLowerC c) := by
  have h := code_cases hk hc
  have hr : k.InRange (toLowerC c) := by
    unfold toLowerC
    split_ifs with h1
    · simp only [lit, Char.reduceToNat] at h1
      obtain ⟨w, s⟩ := k
      unfold CharKind.InRange at hc ⊢
      unfold CharKind.Valid at hk
      simp only at hc hk ⊢
      rcases hk with rfl | rfl | rfl <;> cases s <;> norm_num at hc ⊢ <;> omega
    · exact hc
  refine ⟨hr, ?_⟩
  have h' := code_cases hk hr
  revert h'
  unfold toLower toLowerC
  by_cases h1 : lit 'A' ≤ c ∧ c ≤ lit 'Z'
  · rw [if_pos h1]
    simp only [lit, Char.reduceToNat] at h1 ⊢
    rw [if_pos (by omega)]
    intro h'
    omega
  · rw [if_neg h1]
    simp only [lit, Char.reduceToNat] at h1 ⊢
    rw [if_neg (by omega)]
    intro; trivial

/-- **C87 in the "C" locale**, without assumptions for `char` and 16-bit or unsigned `wchar_t`, and for a signed 32-bit one
on all texts of Unicode characters. -/
theorem C87_c_locale (k : CharKind) (hk : k.Valid) (T : FloatType) (fb : List Int → Nat → Nat → FallbackResult)
    (fb' : Fallback) (errno : Nat) (mem : List Int) (str : Nat) (hmem : ∀ c ∈ mem, k.InRange c)
    (hu : k.w = 32 → k.signed = true → ∀ c ∈ mem, 0 ≤ c ∧ c ≤ 0x10FFFF)
    (hfb : fb' (mem.map k.code) str errno = fb mem str errno) :
    atofC k toLowerC T fb errno mem str = @atof cLocale T fb' errno (mem.map k.code) str := by
  refine C87_atof k hk toLowerC cLocale T fb fb' errno mem str (fun c hc => ⟨hmem c hc, ?_⟩)
    (fun c hc => toLowerC_code k hk c (hmem c hc)) hfb
  have h := hmem c hc
  obtain ⟨w, s⟩ := k
  unfold CharKind.InRange at h
  unfold CharKind.Valid at hk
  simp only at h hk hu ⊢
  rcases hk with rfl | rfl | rfl <;> cases s <;> norm_num at h hu ⊢
  all_goals first
    | omega
    | (have := hu c hc; omega)

/-- **C87, signed or not.** With `char` signed on one platform and unsigned on the other, the same bytes give the same result. -/
theorem C87_signedness (w : Nat) (hw : w = 8 ∨ w = 16) (T : FloatType) (fb : List Int → Nat → Nat → FallbackResult)
    (fbu : List Int → Nat → Nat → FallbackResult) (errno : Nat) (smem umem : List Int) (str : Nat)
    (hs : ∀ c ∈ smem, (CharKind.mk w true).InRange c) (hu : ∀ c ∈ umem, (CharKind.mk w false).InRange c)
    (hsame : smem.map (CharKind.mk w true).code = umem.map (CharKind.mk w false).code)
    (hfb : fbu umem str errno = fb smem str errno) :
    atofC ⟨w, true⟩ toLowerC T fb errno smem str = atofC ⟨w, false⟩ toLowerC T fbu errno umem str := by
  have hv : ∀ s, (CharKind.mk w s).Valid := by
    intro s
    rcases hw with rfl | rfl
    · exact .inl rfl
    · exact .inr (.inl rfl)
  have h32 : ¬ w = 32 := by omega
  rw [C87_c_locale ⟨w, true⟩ (hv _) T fb (fun _ _ _ => fb smem str errno) errno smem str hs (fun h => absurd h h32) rfl,
    C87_c_locale ⟨w, false⟩ (hv _) T fbu (fun _ _ _ => fb smem str errno) errno umem str hu (fun h => absurd h h32) hfb.symm,
    hsame]

theorem ok_of_isOk {α : Type} {x : M α} (h : x.isOk = true) : ∃ v, x = .ok v := by
  cases x with
  | error e => cases h
  | ok v => exact ⟨v, rfl⟩

/-- That this holds for every signed 32-bit `wchar_t` is refuted: after more digits than fit a character below
`INT_MIN + 48` makes the difference to `'0'` overflow. -/
theorem C87_refuted (fb : List Int → Nat → Nat → FallbackResult) (fb' : Fallback) (errno : Nat) :
    atofC ⟨32, true⟩ toLowerC .float fb errno ((chars "1234567891").map Int.ofNat ++ [-2 ^ 31, 0]) 0 = .error .signedOverflow ∧
    (∃ r, atofC ⟨32, false⟩ toLowerC .float fb errno ((chars "1234567891").map Int.ofNat ++ [2 ^ 31, 0]) 0 = .ok r) ∧
    ∃ r, @atof cLocale .float fb' errno (chars "1234567891" ++ [2 ^ 31, 0]) 0 = .ok r := by
  refine ⟨?_, ?_, ?_⟩
  · unfold atofC
    have : kroshC ⟨32, true⟩ toLowerC .float ((chars "1234567891").map Int.ofNat ++ [-2 ^ 31, 0]) 0 = .error .signedOverflow := by
      decide +kernel
    rw [this]; rfl
  · unfold atofC
    have : ∃ v, kroshC ⟨32, false⟩ toLowerC .float ((chars "1234567891").map Int.ofNat ++ [2 ^ 31, 0]) 0 = .ok v :=
      ok_of_isOk (by decide +kernel)
    obtain ⟨v, hv⟩ := this
    rw [hv, ok_bind]
    split_ifs <;> exact ⟨_, rfl⟩
  · unfold atof
    have : ∃ v, krosh .float (chars "1234567891" ++ [2 ^ 31, 0]) 0 = .ok v := ok_of_isOk (by decide +kernel)
    obtain ⟨v, hv⟩ := this
    rw [hv, ok_bind]
    split_ifs <;> exact ⟨_, rfl⟩

theorem numeral_text_ascii (n : Numeral) : ∀ c ∈ n.text, c < 128 := by
  have hs : ∀ s : Option Bool, ∀ c ∈ signText s, c < 128 := by
    intro s; rcases s with _ | _ | _ <;> simp [signText]
  have hd : ∀ ds : List (Fin 10), ∀ c ∈ ds.map digitChar, c < 128 := by
    intro ds c hc
    rw [List.mem_map] at hc
    obtain ⟨d, _, rfl⟩ := hc
    have := d.isLt
    simp only [digitChar, Char.reduceToNat]
    omega
  intro c hc
  unfold Numeral.text Numeral.mantText Numeral.expText ExpPart.text at hc
  simp only [List.mem_append] at hc
  rcases hc with (hc | hc | hc) | hc
  · exact hs _ c hc
  · exact hd _ c hc
  · split at hc
    · simp at hc
    · rcases List.mem_cons.mp hc with h | h
      · subst h; decide
      · exact hd _ c h
  · split at hc
    · simp at hc
    · rcases List.mem_cons.mp hc with h | h
      · subst h; split_ifs <;> decide
      · rcases List.mem_append.mp h with h | h
        · exact hs _ c h
        · exact hd _ c h

/-- **C87, printing.** All characters printed are values of every character type, and their own bit patterns there. -/
theorem C87_printed (T : FloatType) (bits : Nat) (hb : bits < 2 ^ T.W) (s : List Nat) (hs : Prints T bits s) (k : CharKind)
    (hk : k.Valid) : ∀ c ∈ s, k.InRange (c : Int) ∧ k.code (c : Int) = c := by
  have key : ∀ c ∈ s, c < 128 := by
    by_cases h : absPat T bits = 0 ∨ posInf T ≤ absPat T bits
    · have := prints_unique hs (prints_of_ok (by unfold specialText; split_ifs <;> simp)
        (by
          have : (specialText T bits).length ≤ 4 := by unfold specialText; split_ifs <;> simp
          unfold maxBufferSize maxDigits halfDigits10
          cases T <;> simp only [digits10] <;> omega) (ftoa_special T bits h))
      subst this
      unfold specialText
      split_ifs <;> decide
    · obtain ⟨n, h1, -⟩ := C04_ftoa_grammar T bits ⟨hb, by
        rw [expField_eq]
        have h2 : absPat T bits < posInf T := by omega
        revert h2
        generalize absPat T bits = a
        clear * -
        cases T <;> simp only [posInf, expMax, FloatType.W, FloatType.p] <;> omega⟩
      rw [prints_unique hs h1]
      exact numeral_text_ascii n
  intro c hc
  have := key c hc
  obtain ⟨w, sg⟩ := k
  unfold CharKind.InRange CharKind.code
  unfold CharKind.Valid at hk
  simp only at hk ⊢
  rcases hk with rfl | rfl | rfl <;> cases sg <;> norm_num <;> omega

/-- A signed `char` -23 (é in Latin-1) after the number: the hypotheses of `C87_c_locale` are met. -/
example (fb : List Int → Nat → Nat → FallbackResult) :
    atofC ⟨8, true⟩ toLowerC .double fb 0 ((chars "2.5").map Int.ofNat ++ [-23, 0]) 0 =
      atof .double (fun _ => fb ((chars "2.5").map Int.ofNat ++ [-23, 0])) 0 (chars "2.5" ++ [233, 0]) 0 :=
  C87_c_locale ⟨8, true⟩ (.inl rfl) .double fb _ 0 _ 0 (by unfold CharKind.InRange; decide) (by decide) rfl

end Floaxie
