import Verif.Model.Stream
import Verif.Prop.Print
import Mathlib.Data.Nat.Digits.Lemmas

/-!
# C98: stream output of `diy_fp` on a stream in any state
-/

namespace Floaxie

open Spec

/-! ## Specification -/

/-- `ds` are the digits of `n` in base `b`, the most significant first, without leading
zeros. -/
def IsNumeralIn (b n : Nat) (ds : List Nat) : Prop :=
  ds ≠ [] ∧ (∀ d ∈ ds, d < b) ∧ (ds.head? = some 0 → ds = [0]) ∧ ds.foldl (fun a d => a * b + d) 0 = n

/-- The characters for digits: `0`..`9`, `a`..`f` or `A`..`F`. -/
def IsDigitsText (upper : Bool) (ds : List Nat) (s : List Nat) : Prop :=
  List.Forall₂ (fun d c => (if upper then chars "0123456789ABCDEF" else chars "0123456789abcdef")[d]? = some c) ds s

/-- The size of the `i`-th group of digits from the right, if it is limited: the `i`-th entry
of `grouping`, or the last one if there are fewer; an entry that is not positive or is
`CHAR_MAX` is no limit. -/
def groupSize (grouping : List Int) (i : Nat) : Option Nat :=
  match grouping[min i (grouping.length - 1)]? with
  | some g => if 0 < g ∧ g < 127 then some g.toNat else none
  | none => none

/-- `g` is `text` in groups with a separator between them.  Counted from the right, each group but
the leftmost has its full size, the leftmost has at least one digit and at most its size. -/
def IsGrouped (sep : Nat) (grouping : List Int) (text g : List Nat) : Prop :=
  ∃ groups : List (List Nat), groups ≠ [] ∧ groups.flatten = text.reverse ∧ [sep].intercalate groups = g.reverse ∧
    ∀ i x, groups[i]? = some x → x ≠ [] ∧
      (if i + 1 = groups.length then ∀ k, groupSize grouping i = some k → x.length ≤ k
       else groupSize grouping i = some x.length)

/-- `s` is the integer `v` in a format: in decimal, with a sign if it is negative or a sign
is asked for; in octal or hexadecimal modulo 2^32 and, except for zero, with `0` or `0x`
(`0X`) before it if that is asked for; its digits grouped as the locale says. -/
def Shown (f : StreamFormat) (v : Int) (s : List Nat) : Prop :=
  ∃ (b n : Nat) (pre ds text g : List Nat), s = pre ++ g ∧ IsGrouped f.sep f.grouping text g ∧
    IsNumeralIn b n ds ∧ IsDigitsText f.uppercase ds text ∧
    match f.base with
    | .dec => b = 10 ∧ n = v.natAbs ∧ pre = if v < 0 then chars "-" else if f.showpos then chars "+" else []
    | .oct => b = 8 ∧ (n : Int) = v % 2 ^ 32 ∧ pre = if f.showbase = true ∧ n ≠ 0 then chars "0" else []
    | .hex => b = 16 ∧ (n : Int) = v % 2 ^ 32 ∧
        pre = if f.showbase = true ∧ n ≠ 0 then (if f.uppercase then chars "0X" else chars "0x") else []

/-- The text for `v` on a stream with that format and width: the width applies to the
first five characters, `(f = `, only. -/
def StreamText (W : Nat) (v : DiyFp) (f : StreamFormat) (width : Int) (t : List Nat) : Prop :=
  ∃ F E before after, IsBinary W v.f F ∧ Shown f v.e E ∧
    before ++ after = List.replicate (width - 5).toNat f.fill ∧
    (f.adjust = .left → before = []) ∧ (f.adjust ≠ .left → after = []) ∧
    t = before ++ chars "(f = " ++ after ++ F ++ chars ", e = " ++ E ++ chars ")"

/-! ## Proofs -/

theorem groupSize_next (g : Int) (gs : List Int) (i : Nat) :
    groupSize (if gs = [] then [g] else gs) i = groupSize (g :: gs) (i + 1) := by
  cases gs with
  | nil => simp [groupSize]
  | cons a gs =>
    have : min (i + 1) ((g :: a :: gs).length - 1) = min i ((a :: gs).length - 1) + 1 := by
      simp only [List.length_cons]; omega
    rw [if_neg (by simp)]
    unfold groupSize
    rw [this, List.getElem?_cons_succ]

theorem groupSize_zero (g : Int) (gs : List Int) :
    groupSize (g :: gs) 0 = if 0 < g ∧ g < 127 then some g.toNat else none := by
  simp [groupSize]

theorem groupRev_short (sep : Nat) (gs : List Int) (r : List Nat) (h : ∀ k, groupSize gs 0 = some k → r.length ≤ k) :
    groupRev sep gs r = r := by
  unfold groupRev
  cases gs with
  | nil => rfl
  | cons g gs =>
    dsimp only
    rw [if_neg]
    rintro ⟨h1, h2, h3⟩
    have := h g.toNat (by rw [groupSize_zero, if_pos ⟨h1, h2⟩])
    omega

theorem groupRev_long (sep : Nat) (gs : List Int) (r : List Nat) (k : Nat) (h : groupSize gs 0 = some k) (hk : k < r.length) :
    0 < k ∧ ∃ gs', (∀ i, groupSize gs' i = groupSize gs (i + 1)) ∧
      ∀ r' : List Nat, k < r'.length → groupRev sep gs r' = r'.take k ++ sep :: groupRev sep gs' (r'.drop k) := by
  cases gs with
  | nil => simp [groupSize] at h
  | cons g gs =>
    rw [groupSize_zero] at h
    split_ifs at h with hg
    have hk' := Option.some.inj h
    subst hk'
    refine ⟨by omega, if gs = [] then [g] else gs, groupSize_next g gs, fun r' hr => ?_⟩
    conv_lhs => unfold groupRev
    rw [if_pos ⟨hg.1, hg.2, hr⟩]

/-- Either it is short, or a group is split off. -/
theorem groupRev_cases (gs : List Int) (r : List Nat) :
    (∀ k, groupSize gs 0 = some k → r.length ≤ k) ∨ ∃ k, groupSize gs 0 = some k ∧ k < r.length := by
  cases h : groupSize gs 0 with
  | none => left; simp
  | some k =>
    rcases lt_or_ge k r.length with h' | h'
    · exact .inr ⟨k, rfl, h'⟩
    · left; intro k' e; have := Option.some.inj e; omega

theorem intercalate_cons_ne (sep : Nat) (x : List Nat) {L : List (List Nat)} (h : L ≠ []) :
    [sep].intercalate (x :: L) = x ++ sep :: [sep].intercalate L := by
  cases L with
  | nil => exact absurd rfl h
  | cons y L => simp [List.intercalate]

theorem groupRev_groups (sep : Nat) (n : Nat) : ∀ (gs : List Int) (r : List Nat), r.length = n → r ≠ [] →
    ∃ groups : List (List Nat), groups ≠ [] ∧ groups.flatten = r ∧ [sep].intercalate groups = groupRev sep gs r ∧
    ∀ i x, groups[i]? = some x → x ≠ [] ∧
      (if i + 1 = groups.length then ∀ k, groupSize gs i = some k → x.length ≤ k
       else groupSize gs i = some x.length) := by
  induction n using Nat.strong_induction_on with
  | _ n ih =>
    intro gs r hn hr
    rcases groupRev_cases gs r with h | ⟨k, h, hk⟩
    · refine ⟨[r], by simp, by simp, by rw [groupRev_short sep gs r h]; simp [List.intercalate], ?_⟩
      intro i x hx
      cases i with
      | succ i => simp at hx
      | zero =>
        simp only [List.getElem?_cons_zero, Option.some.injEq] at hx
        subst hx
        exact ⟨hr, by simpa using h⟩
    · obtain ⟨h0, gs', h1, h2⟩ := groupRev_long sep gs r k h hk
      obtain ⟨G, g1, g2, g3, g4⟩ := ih (r.drop k).length (by simp; omega) gs' (r.drop k) rfl
        (by intro e; have := congrArg List.length e; simp at this; omega)
      refine ⟨r.take k :: G, by simp, by simp [g2], by rw [intercalate_cons_ne sep _ g1, g3, h2 r hk], ?_⟩
      intro i x hx
      cases i with
      | zero =>
        simp only [List.getElem?_cons_zero, Option.some.injEq] at hx
        subst hx
        have hl : (r.take k).length = k := by simp; omega
        refine ⟨by intro e; rw [e] at hl; simp at hl; omega, ?_⟩
        have : ¬ (0 + 1 = (r.take k :: G).length) := by
          simp [g1]
        rw [if_neg this, h, hl]
      | succ i =>
        rw [List.getElem?_cons_succ] at hx
        have := g4 i x hx
        rw [h1] at this
        simpa using this

theorem grouped_isGrouped (f : StreamFormat) (text : List Nat) (h : text ≠ []) :
    IsGrouped f.sep f.grouping text (f.grouped text) := by
  obtain ⟨G, h1, h2, h3, h4⟩ := groupRev_groups f.sep _ f.grouping text.reverse rfl (by simpa using h)
  exact ⟨G, h1, h2, by rw [h3, StreamFormat.grouped, List.reverse_reverse], h4⟩

theorem groups_groupRev (sep : Nat) : ∀ (groups : List (List Nat)) (gs : List Int), groups ≠ [] →
    (∀ i x, groups[i]? = some x → x ≠ [] ∧
      (if i + 1 = groups.length then ∀ k, groupSize gs i = some k → x.length ≤ k
       else groupSize gs i = some x.length)) →
    [sep].intercalate groups = groupRev sep gs groups.flatten := by
  intro groups
  induction groups with
  | nil => intro gs h; exact absurd rfl h
  | cons x G ih =>
    intro gs _ h
    by_cases hG : G = []
    · subst hG
      have := (h 0 x rfl).2
      rw [if_pos (by simp)] at this
      have e : [x].flatten = x := by simp
      rw [e, groupRev_short sep gs x this]
      simp [List.intercalate]
    · have h0 := (h 0 x rfl).2
      rw [if_neg (by simp [hG])] at h0
      have hne : G.flatten ≠ [] := by
        cases G with
        | nil => exact absurd rfl hG
        | cons y G =>
          have := (h 1 y rfl).1
          simp [this]
      have hk : x.length < (x :: G).flatten.length := by
        have := List.length_pos_iff.mpr hne
        simp only [List.flatten_cons, List.length_append]
        omega
      obtain ⟨-, gs', h1, h2⟩ := groupRev_long sep gs _ _ h0 hk
      rw [h2 _ hk, intercalate_cons_ne sep x hG, ih gs' hG]
      · simp
      · intro i y hy
        have := h (i + 1) y hy
        rw [← h1] at this
        simpa using this

/-- The grouped text is determined. -/
theorem isGrouped_eq {f : StreamFormat} {text g : List Nat} (h : IsGrouped f.sep f.grouping text g) : g = f.grouped text := by
  obtain ⟨G, h1, h2, h3, h4⟩ := h
  rw [StreamFormat.grouped, ← h2, ← groups_groupRev f.sep G f.grouping h1 h4, h3, List.reverse_reverse]

theorem groupRev_inj (sep : Nat) (n : Nat) : ∀ (gs : List Int) (r r' : List Nat), r.length = n →
    groupRev sep gs r = groupRev sep gs r' → r = r' := by
  induction n using Nat.strong_induction_on with
  | _ n ih =>
    intro gs r r' hn e
    rcases groupRev_cases gs r with h | ⟨k, h, hk⟩ <;> rcases groupRev_cases gs r' with h' | ⟨k', h', hk'⟩
    · rwa [groupRev_short sep gs r h, groupRev_short sep gs r' h'] at e
    · obtain ⟨-, gs', -, h2⟩ := groupRev_long sep gs r' k' h' hk'
      rw [groupRev_short sep gs r h, h2 r' hk'] at e
      have h3 := h k' h'
      rw [e] at h3
      simp at h3
      omega
    · obtain ⟨-, gs', -, h2⟩ := groupRev_long sep gs r k h hk
      rw [groupRev_short sep gs r' h', h2 r hk] at e
      have h3 := h' k h
      rw [← e] at h3
      simp at h3
      omega
    · obtain rfl : k = k' := Option.some.inj (h.symm.trans h')
      obtain ⟨h0, gs', -, h2⟩ := groupRev_long sep gs r k h hk
      rw [h2 r hk, h2 r' hk'] at e
      obtain ⟨e1, e2⟩ := List.append_inj e (by simp; omega)
      have := ih (r.drop k).length (by simp; omega) gs' _ _ rfl (List.cons.inj e2).2
      rw [← List.take_append_drop k r, e1, this, List.take_append_drop]

/-- Digits are determined by the grouped text. -/
theorem grouped_inj {f : StreamFormat} {a b : List Nat} (h : f.grouped a = f.grouped b) : a = b := by
  unfold StreamFormat.grouped at h
  exact List.reverse_injective (groupRev_inj f.sep _ f.grouping _ _ rfl (List.reverse_injective h))

/-- Grouping leaves the first digit where it is. -/
theorem groupRev_concat (sep c : Nat) (n : Nat) : ∀ (gs : List Int) (r : List Nat), r.length = n →
    ∃ x, groupRev sep gs (r ++ [c]) = x ++ [c] ∧ (r = [] → x = []) := by
  induction n using Nat.strong_induction_on with
  | _ n ih =>
    intro gs r hn
    rcases groupRev_cases gs (r ++ [c]) with h | ⟨k, h, hk⟩
    · exact ⟨r, groupRev_short sep gs _ h, id⟩
    · obtain ⟨h0, gs', -, h2⟩ := groupRev_long sep gs _ k h hk
      have hk' : k ≤ r.length := by simpa using hk
      obtain ⟨x, h3, -⟩ := ih (r.drop k).length (by simp; omega) gs' (r.drop k) rfl
      refine ⟨r.take k ++ sep :: x, ?_, ?_⟩
      · rw [h2 _ hk, List.drop_append_of_le_length hk', h3, List.take_append_of_le_length hk']
        simp
      · intro e
        rw [e] at hk'
        simp at hk'
        omega

theorem grouped_cons (f : StreamFormat) (c : Nat) (t : List Nat) :
    ∃ u, f.grouped (c :: t) = c :: u ∧ (t = [] → u = []) := by
  obtain ⟨x, h1, h2⟩ := groupRev_concat f.sep c _ f.grouping t.reverse rfl
  refine ⟨x.reverse, ?_, fun h => by rw [h2 (by simp [h])]; rfl⟩
  rw [StreamFormat.grouped, List.reverse_cons, h1]
  simp

theorem unsignedDigits_spec (b : Nat) (hb : 1 < b) (hb' : b ≤ 16) (upper : Bool) (n : Nat) :
    ∃ ds, IsNumeralIn b n ds ∧ IsDigitsText upper ds (unsignedDigits b upper n) := by
  have hdig : ∀ d < 16, (if upper then chars "0123456789ABCDEF" else chars "0123456789abcdef")[d]? = some (digitOf upper d) := by
    cases upper <;> decide
  have htext : ∀ ds : List Nat, (∀ d ∈ ds, d < b) → IsDigitsText upper ds (ds.map (digitOf upper)) := by
    intro ds h
    unfold IsDigitsText
    rw [List.forall₂_map_right_iff, List.forall₂_same]
    exact fun d hd => hdig d (lt_of_lt_of_le (h d hd) hb')
  unfold unsignedDigits
  split_ifs with h0
  · refine ⟨[0], ⟨by simp, by simpa using by omega, fun _ => rfl, by simp [h0]⟩, ?_⟩
    have := htext [0] (by simpa using by omega)
    simpa [digitOf] using this
  · refine ⟨(Nat.digits b n).reverse, ⟨?_, ?_, ?_, ?_⟩, ?_⟩
    · simpa using Nat.digits_ne_nil_iff_ne_zero.mpr h0
    · intro d hd
      exact Nat.digits_lt_base hb (List.mem_reverse.mp hd)
    · intro h
      rw [List.head?_reverse] at h
      have h2 := Nat.getLast_digit_ne_zero b h0
      rw [List.getLast?_eq_getLast_of_ne_nil (Nat.digits_ne_nil_iff_ne_zero.mpr h0), Option.some_inj] at h
      exact absurd h h2
    · rw [List.foldl_reverse]
      have := Nat.ofDigits_digits b n
      rw [Nat.ofDigits_eq_foldr] at this
      refine Eq.trans ?_ this
      congr 1
      funext x y
      push_cast
      ring
    · exact htext _ fun d hd => Nat.digits_lt_base hb (List.mem_reverse.mp hd)

/-- The stream `s'` came from the good stream `s` by writing `seq`, as far as the buffer
took it. -/
structure Written (s s' : Stream) (seq : List Nat) : Prop where
  fmt : s'.fmt = s.fmt
  accepts : s'.accepts = s.accepts
  width : s'.width = 0
  out : ∃ text rest, seq = text ++ rest ∧ s'.out = s.out ++ text ∧ (s'.good = true ↔ rest = []) ∧
    (∀ c R, rest = c :: R → s.accepts (s.out ++ text) c = false) ∧
    ∀ a c R, text = a ++ c :: R → s.accepts (s.out ++ a) c = true

theorem put_written (seq : List Nat) : ∀ s : Stream, s.good = true →
    Written s { s.put seq with width := 0 } seq := by
  induction seq with
  | nil =>
    intro s hg
    refine ⟨rfl, rfl, rfl, [], [], rfl, ?_, ?_, ?_, ?_⟩
    · exact (List.append_nil _).symm
    · simpa [Stream.put] using hg
    · intro c R h; simp at h
    · intro a c R h; simp at h
  | cons c cs ih =>
    intro s hg
    unfold Stream.put
    split_ifs with hc
    · obtain ⟨h1, h2, -, text, rest, h3, h4, h5, h6, h7⟩ := ih { s with out := s.out ++ [c] } hg
      refine ⟨h1, h2, rfl, c :: text, rest, by rw [h3]; rfl, by rw [h4]; simp, h5, ?_, ?_⟩
      · intro d R h
        have := h6 d R h
        simpa using this
      · intro a d R h
        cases a with
        | nil =>
          simp only [List.nil_append, List.cons.injEq] at h
          rw [← h.1, List.append_nil]
          exact hc
        | cons x a =>
          simp only [List.cons_append, List.cons.injEq] at h
          have := h7 a d R h.2
          rw [h.1] at this
          simpa using this
    · refine ⟨rfl, rfl, rfl, [], c :: cs, rfl, (List.append_nil _).symm, by simp, ?_, ?_⟩
      · intro d R h
        simp only [List.cons.injEq] at h
        rw [← h.1, List.append_nil]
        simpa using hc
      · intro a d R h; simp at h

theorem formatted_written (s : Stream) (hg : s.good = true) (seq : List Nat) : Written s (s.formatted seq) seq := by
  unfold Stream.formatted
  rw [if_pos hg]
  exact put_written seq s hg

theorem Written.trans {s s' s'' : Stream} {x y : List Nat} (h : Written s s' x)
    (hg : s'.good = true → Written s' s'' y) (hb : s'.good = false → s'' = s') : Written s s'' (x ++ y) := by
  obtain ⟨h1, h2, h3, text, rest, h4, h5, h6, h7, h8⟩ := h
  by_cases hs : s'.good = true
  · obtain ⟨k1, k2, k3, text', rest', k4, k5, k6, k7, k8⟩ := hg hs
    obtain rfl := h6.mp hs
    rw [List.append_nil] at h4
    subst h4
    refine ⟨k1.trans h1, k2.trans h2, k3, x ++ text', rest', by rw [k4, List.append_assoc],
      by rw [k5, h5, List.append_assoc], k6, ?_, ?_⟩
    · intro c R hr
      have := k7 c R hr
      rwa [h2, h5, List.append_assoc] at this
    · intro a c R ht
      rcases List.append_eq_append_iff.mp ht with ⟨a', e1, e2⟩ | ⟨c', e1, e2⟩
      · have := k8 a' c R e2
        rw [h2, h5, List.append_assoc] at this
        rwa [e1]
      · cases c' with
        | nil =>
          rw [List.append_nil] at e1
          rw [List.nil_append] at e2
          have := k8 [] c R (by rw [← e2]; rfl)
          rw [h2, h5, List.append_nil] at this
          rwa [← e1]
        | cons z c' =>
          simp only [List.cons_append, List.cons.injEq] at e2
          rw [e2.1]
          exact h8 a z c' e1
  · have hs' : s'.good = false := by simpa using hs
    rw [hb hs']
    refine ⟨h1, h2, h3, text, rest ++ y, by rw [h4, List.append_assoc], h5, ?_, ?_, h8⟩
    · have hr : rest ≠ [] := fun h => hs (h6.mpr h)
      constructor
      · intro h; exact absurd h hs
      · intro h; exact absurd (List.append_eq_nil_iff.mp h).1 hr
    · intro c R hr
      cases rest with
      | nil => exact absurd (h6.mpr rfl) hs
      | cons d rest =>
        simp only [List.cons_append, List.cons.injEq] at hr
        rw [← hr.1]
        exact h7 d rest rfl

theorem formatted_bad (s : Stream) (h : s.good = false) (seq : List Nat) : s.formatted seq = s := by
  simp [Stream.formatted, h]

/-- Without width nothing is filled in. -/
theorem insertChars_written (s : Stream) (hg : s.good = true) (hw : s.width = 0) (cs : List Nat) :
    Written s (s.insertChars cs) cs := by
  have hf : s.filling cs.length = [] := by simp [Stream.filling, hw]
  unfold Stream.insertChars
  rw [hf]
  cases s.fmt.adjust <;> simpa using formatted_written s hg cs

theorem insertInt_written (s : Stream) (hg : s.good = true) (hw : s.width = 0) (v : Int) :
    Written s (s.insertInt v) ((s.fmt.int v).1 ++ (s.fmt.int v).2) := by
  have hf : s.filling ((s.fmt.int v).1.length + (s.fmt.int v).2.length) = [] := by
    simp only [Stream.filling, hw]
    rw [List.replicate_eq_nil_iff]
    omega
  unfold Stream.insertInt
  dsimp only
  rw [hf]
  cases s.fmt.adjust <;> simpa using formatted_written s hg _

theorem insertChars_bad (s : Stream) (h : s.good = false) (cs : List Nat) : s.insertChars cs = s := by
  unfold Stream.insertChars
  exact formatted_bad s h _

theorem insertInt_bad (s : Stream) (h : s.good = false) (v : Int) : s.insertInt v = s := by
  unfold Stream.insertInt
  exact formatted_bad s h _

/-- The text `operator<<` writes, in terms of the model. -/
def streamText (W : Nat) (v : DiyFp) (f : StreamFormat) (width : Int) : List Nat :=
  let filling := List.replicate (width - 5).toNat f.fill
  (match f.adjust with
    | .left => chars "(f = " ++ filling
    | _ => filling ++ chars "(f = ") ++
  (printBinaryInt W v.f ++ (chars ", e = " ++ (((f.int v.e).1 ++ (f.int v.e).2) ++ chars ")")))

theorem insertInto_written (W : Nat) (v : DiyFp) (s : Stream) (hg : s.good = true) :
    Written s (v.insertInto W s) (streamText W v s.fmt s.width) := by
  unfold DiyFp.insertInto streamText
  dsimp only
  have h1 : Written s (s.insertChars (chars "(f = ")) (match s.fmt.adjust with
      | .left => chars "(f = " ++ List.replicate (s.width - 5).toNat s.fmt.fill
      | _ => List.replicate (s.width - 5).toNat s.fmt.fill ++ chars "(f = ") := formatted_written s hg _
  refine h1.trans (fun g1 => ?_) (fun b1 => ?_)
  · have h2 := insertChars_written _ g1 h1.width (printBinaryInt W v.f)
    refine h2.trans (fun g2 => ?_) (fun b2 => ?_)
    · have h3 := insertChars_written _ g2 h2.width (chars ", e = ")
      refine h3.trans (fun g3 => ?_) (fun b3 => ?_)
      · have h4 := insertInt_written _ g3 h3.width v.e
        rw [h3.fmt, h2.fmt, h1.fmt] at h4
        refine h4.trans (fun g4 => ?_) (fun b4 => ?_)
        · exact insertChars_written _ g4 h4.width _
        · rw [insertChars_bad _ b4]
      · rw [insertInt_bad _ b3, insertChars_bad _ b3]
    · rw [insertChars_bad _ b2, insertInt_bad _ b2, insertChars_bad _ b2]
  · rw [insertChars_bad _ b1, insertChars_bad _ b1, insertInt_bad _ b1, insertChars_bad _ b1]

theorem insertInto_bad (W : Nat) (v : DiyFp) (s : Stream) (h : s.good = false) : v.insertInto W s = s := by
  unfold DiyFp.insertInto
  dsimp only
  rw [insertChars_bad _ h, insertChars_bad _ h, insertChars_bad _ h, insertInt_bad _ h, insertChars_bad _ h]

theorem digitsText_ne_nil {b n : Nat} {u : Bool} {ds text : List Nat} (h : IsNumeralIn b n ds)
    (h' : IsDigitsText u ds text) : text ≠ [] := by
  intro e
  rw [e] at h'
  cases h'
  exact h.1 rfl

theorem int_shown (f : StreamFormat) (v : Int) : Shown f v ((f.int v).1 ++ (f.int v).2) := by
  unfold StreamFormat.int Shown
  have hm : ((v % 2 ^ 32).toNat : Int) = v % 2 ^ 32 := Int.toNat_of_nonneg (Int.emod_nonneg _ (by norm_num))
  cases hb : f.base with
  | dec =>
    obtain ⟨ds, h1, h2⟩ := unsignedDigits_spec 10 (by omega) (by omega) f.uppercase v.natAbs
    exact ⟨10, _, _, ds, _, _, rfl, grouped_isGrouped f _ (digitsText_ne_nil h1 h2), h1, h2, rfl, rfl, rfl⟩
  | oct =>
    obtain ⟨ds, h1, h2⟩ := unsignedDigits_spec 8 (by omega) (by omega) f.uppercase (v % 2 ^ 32).toNat
    refine ⟨8, (v % 2 ^ 32).toNat, if f.showbase = true ∧ (v % 2 ^ 32).toNat ≠ 0 then chars "0" else [], ds, _, _, ?_,
      grouped_isGrouped f _ (digitsText_ne_nil h1 h2), h1, h2, rfl, hm, rfl⟩
    by_cases k1 : f.showbase = true <;> by_cases k2 : (v % 2 ^ 32).toNat = 0 <;> simp [k1, chars]
  | hex =>
    obtain ⟨ds, h1, h2⟩ := unsignedDigits_spec 16 (by omega) (by omega) f.uppercase (v % 2 ^ 32).toNat
    refine ⟨16, (v % 2 ^ 32).toNat, _, ds, _, _, rfl, grouped_isGrouped f _ (digitsText_ne_nil h1 h2), h1, h2, rfl, hm, ?_⟩
    by_cases k1 : f.showbase = true <;> by_cases k2 : (v % 2 ^ 32).toNat = 0 <;>
      by_cases k3 : f.uppercase = true <;> simp [k1, k3, chars]

/-- Digits are determined by the number. -/
theorem numeralIn_unique {b n : Nat} (hb : 1 < b) {ds ds' : List Nat} (h : IsNumeralIn b n ds) (h' : IsNumeralIn b n ds') :
    ds = ds' := by
  have key : ∀ {ds : List Nat}, IsNumeralIn b n ds → ds = if n = 0 then [0] else (Nat.digits b n).reverse := by
    intro ds ⟨h1, h2, h3, h4⟩
    have h5 : Nat.ofDigits b ds.reverse = n := by
      rw [Nat.ofDigits_eq_foldr, List.foldr_reverse, ← h4]
      congr 1
      funext x y
      push_cast
      ring
    by_cases h0 : ds.head? = some 0
    · have := h3 h0
      subst this
      rw [if_pos (by simpa using h4.symm)]
    · have h6 := Nat.digits_ofDigits b hb ds.reverse (fun d hd => h2 d (List.mem_reverse.mp hd)) (by
        intro hne
        rw [List.getLast_reverse]
        intro hh
        exact h0 (by rw [List.head?_eq_some_head h1, hh]))
      rw [h5] at h6
      have hn : n ≠ 0 := by
        intro hn
        rw [hn, Nat.digits_zero] at h6
        exact h1 (List.reverse_eq_nil_iff.mp h6.symm)
      rw [if_neg hn, h6, List.reverse_reverse]
  rw [key h, key h']

theorem digitsText_inj {u : Bool} {ds : List Nat} : ∀ {ds' s : List Nat}, IsDigitsText u ds s → IsDigitsText u ds' s → ds = ds' := by
  have hinj : ∀ d d' c : Nat, (if u then chars "0123456789ABCDEF" else chars "0123456789abcdef")[d]? = some c →
      (if u then chars "0123456789ABCDEF" else chars "0123456789abcdef")[d']? = some c → d = d' := by
    intro d d' c h h'
    have hn : (if u then chars "0123456789ABCDEF" else chars "0123456789abcdef").Nodup := by cases u <;> decide
    obtain ⟨k, -⟩ := List.getElem?_eq_some_iff.mp h
    exact (List.getElem?_inj k hn).mp (h.trans h'.symm)
  induction ds with
  | nil => intro ds' s h h'; cases h; cases h'; rfl
  | cons d ds ih =>
    intro ds' s h h'
    cases h with
    | cons a b =>
      cases h' with
      | cons a' b' => rw [hinj _ _ _ a a', ih b b']

theorem digitsText_unique {u : Bool} {ds : List Nat} : ∀ {s s' : List Nat}, IsDigitsText u ds s → IsDigitsText u ds s' → s = s' := by
  induction ds with
  | nil => intro s s' h h'; cases h; cases h'; rfl
  | cons d ds ih =>
    intro s s' h h'
    cases h with
    | cons a b =>
      cases h' with
      | cons a' b' => rw [Option.some.inj (a.symm.trans a'), ih b b']

theorem digitsText_ne_sign {u : Bool} {ds : List Nat} {c : Nat} {s : List Nat} (h : IsDigitsText u ds (c :: s)) :
    c ≠ '-'.toNat ∧ c ≠ '+'.toNat := by
  cases h with
  | cons a b =>
    have : c ∈ (if u then chars "0123456789ABCDEF" else chars "0123456789abcdef") := List.mem_of_getElem? a
    have hall : ∀ c ∈ (if u then chars "0123456789ABCDEF" else chars "0123456789abcdef"), c ≠ '-'.toNat ∧ c ≠ '+'.toNat := by
      cases u <;> decide
    exact hall c this

/-- The integer determines the characters. -/
theorem shown_unique {f : StreamFormat} {v : Int} {s s' : List Nat} (h : Shown f v s) (h' : Shown f v s') : s = s' := by
  obtain ⟨b, n, pre, ds, text, g, h1, hg, h2, h3, h4⟩ := h
  obtain ⟨b', n', pre', ds', text', g', h1', hg', h2', h3', h4'⟩ := h'
  have key : 1 < b ∧ b = b' ∧ n = n' ∧ pre = pre' := by
    cases hb : f.base <;> rw [hb] at h4 h4' <;> dsimp only at h4 h4'
    · obtain ⟨rfl, rfl, rfl⟩ := h4
      obtain ⟨rfl, rfl, rfl⟩ := h4'
      simp
    all_goals
      obtain ⟨rfl, k, rfl⟩ := h4
      obtain ⟨rfl, k', rfl⟩ := h4'
      have : n = n' := by omega
      subst this
      simp
  obtain ⟨hb, rfl, rfl, rfl⟩ := key
  obtain rfl := numeralIn_unique hb h2 h2'
  obtain rfl := digitsText_unique h3 h3'
  rw [h1, h1', isGrouped_eq hg, isGrouped_eq hg']

/-- The characters determine the integer. -/
theorem shown_inj {f : StreamFormat} {v w : Int} {s : List Nat} (hv : -2 ^ 31 ≤ v ∧ v < 2 ^ 31) (hw : -2 ^ 31 ≤ w ∧ w < 2 ^ 31)
    (h : Shown f v s) (h' : Shown f w s) : v = w := by
  obtain ⟨b, n, pre, ds, text, g, rfl, hg, ⟨n1, n2, n3, n4⟩, h3, h4⟩ := h
  obtain ⟨b', n', pre', ds', text', g', h1', hg', ⟨m1, m2, m3, m4⟩, h3', h4'⟩ := h'
  have hg := isGrouped_eq hg
  have hg' := isGrouped_eq hg'
  obtain ⟨c, t, rfl⟩ : ∃ c t, text = c :: t := by
    cases h3 with
    | nil => exact absurd rfl n1
    | cons a b => exact ⟨_, _, rfl⟩
  obtain ⟨c', t', rfl⟩ : ∃ c t, text' = c :: t := by
    cases h3' with
    | nil => exact absurd rfl m1
    | cons a b => exact ⟨_, _, rfl⟩
  have s1 := digitsText_ne_sign h3
  have s2 := digitsText_ne_sign h3'
  obtain ⟨u, k1, k2⟩ := grouped_cons f c t
  obtain ⟨u', k1', k2'⟩ := grouped_cons f c' t'
  rw [k1] at hg
  rw [k1'] at hg'
  subst hg hg'
  have same : c :: u = c' :: u' → b = b' → n = n' := by
    intro e e'
    rw [← k1, ← k1'] at e
    rw [grouped_inj e] at h3
    rw [← n4, ← m4, digitsText_inj h3 h3', e']
  -- the text of zero has one character
  have zero : n = 0 → 1 < b → u = [] := by
    intro e hb
    apply k2
    have : ds = [0] := numeralIn_unique hb ⟨n1, n2, n3, n4⟩ ⟨by simp, by simpa using by omega, fun _ => rfl, by simpa using e.symm⟩
    rw [this] at h3
    cases h3 with
    | cons _ b => cases b; rfl
  have zero' : n' = 0 → 1 < b' → u' = [] := by
    intro e hb
    apply k2'
    have : ds' = [0] := numeralIn_unique hb ⟨m1, m2, m3, m4⟩ ⟨by simp, by simpa using by omega, fun _ => rfl, by simpa using e.symm⟩
    rw [this] at h3'
    cases h3' with
    | cons _ b => cases b; rfl
  have e1 : chars "-" = ['-'.toNat] := rfl
  have e2 : chars "+" = ['+'.toNat] := rfl
  have e3 : chars "0" = ['0'.toNat] := rfl
  have e4 : chars "0x" = ['0'.toNat, 'x'.toNat] := rfl
  have e5 : chars "0X" = ['0'.toNat, 'X'.toNat] := rfl
  have e6 : '-'.toNat ≠ '+'.toNat := by decide
  cases hb : f.base <;> rw [hb] at h4 h4' <;> dsimp only at h4 h4'
  · obtain ⟨rfl, rfl, rfl⟩ := h4
    obtain ⟨rfl, rfl, rfl⟩ := h4'
    rw [e1, e2] at h1'
    have hsame : (v < 0 ↔ w < 0) ∧ c :: u = c' :: u' := by
      by_cases hp : f.showpos = true <;> by_cases hv0 : v < 0 <;> by_cases hw0 : w < 0
      all_goals simp only [hp, hv0, hw0, if_true, if_false, List.nil_append, List.cons_append, Bool.false_eq_true,
        List.cons.injEq] at h1' ⊢
      all_goals first
        | exact ⟨trivial, h1'.2⟩
        | exact ⟨trivial, h1'⟩
        | exact absurd h1'.1 e6
        | exact absurd h1'.1.symm e6
        | exact absurd h1'.1 s1.1
        | exact absurd h1'.1.symm s2.1
    have := same hsame.2 rfl
    omega
  · obtain ⟨rfl, k, rfl⟩ := h4
    obtain ⟨rfl, k', rfl⟩ := h4'
    have hn : n = n' := by
      rw [e3] at h1'
      by_cases hs : f.showbase = true <;> by_cases hv0 : n = 0 <;> by_cases hw0 : n' = 0
      all_goals simp only [hs, hv0, hw0, if_true, if_false, List.nil_append, List.cons_append, Bool.false_eq_true,
        not_true, not_false_eq_true, and_true, and_false, ne_eq] at h1'
      all_goals first
        | (rw [hv0, hw0])
        | exact same h1' rfl
        | (have z := zero hv0 (by omega); simp [z] at h1')
        | (have z := zero' hw0 (by omega); simp [z] at h1')
        | exact same (List.cons.inj h1').2 rfl
    omega
  · obtain ⟨rfl, k, rfl⟩ := h4
    obtain ⟨rfl, k', rfl⟩ := h4'
    have hn : n = n' := by
      rw [e4, e5] at h1'
      by_cases hu : f.uppercase = true <;> by_cases hs : f.showbase = true <;> by_cases hv0 : n = 0 <;> by_cases hw0 : n' = 0
      all_goals simp only [hu, hs, hv0, hw0, if_true, if_false, List.nil_append, List.cons_append, Bool.false_eq_true,
        not_true, not_false_eq_true, and_true, and_false, ne_eq] at h1'
      all_goals first
        | (rw [hv0, hw0])
        | exact same h1' rfl
        | (have z := zero hv0 (by omega); simp [z] at h1')
        | (have z := zero' hw0 (by omega); simp [z] at h1')
        | exact same (List.cons.inj (List.cons.inj h1').2).2 rfl
    omega

theorem isBinary_unique {n : Nat} : ∀ {v : Nat} {s s' : List Nat}, IsBinary n v s → IsBinary n v s' → s = s' := by
  induction n with
  | zero =>
    intro v s s' h h'
    rw [List.length_eq_zero_iff.mp h.1, List.length_eq_zero_iff.mp h'.1]
  | succ n ih =>
    intro v s s' ⟨h1, h2, h3⟩ ⟨h1', h2', h3'⟩
    rcases List.eq_nil_or_concat s with rfl | ⟨s, c, rfl⟩
    · simp at h1
    rcases List.eq_nil_or_concat s' with rfl | ⟨s', c', rfl⟩
    · simp at h1'
    rw [List.concat_eq_append] at *
    rw [List.concat_eq_append] at *
    rw [List.length_append, List.length_singleton] at h1 h1'
    unfold binaryVal at h3 h3'
    rw [List.foldl_append] at h3 h3'
    simp only [List.foldl_cons, List.foldl_nil] at h3 h3'
    have hc := h2 c (by simp)
    have hc' := h2' c' (by simp)
    have e0 : '0'.toNat = 48 := rfl
    have e1 : '1'.toNat = 49 := rfl
    have hcc : c = c' := by omega
    subst hcc
    have : s = s' := ih (v := binaryVal s) ⟨by omega, fun d hd => h2 d (by simp [hd]), rfl⟩
      ⟨by omega, fun d hd => h2' d (by simp [hd]), by unfold binaryVal; omega⟩
    rw [this]

theorem filling_unique {f : StreamFormat} {p q p' q' r : List Nat} (h : p ++ q = r) (h' : p' ++ q' = r)
    (h4 : f.adjust = .left → p = []) (h5 : f.adjust ≠ .left → q = [])
    (h4' : f.adjust = .left → p' = []) (h5' : f.adjust ≠ .left → q' = []) : p = p' ∧ q = q' := by
  by_cases hl : f.adjust = .left
  · obtain rfl := h4 hl
    obtain rfl := h4' hl
    exact ⟨rfl, h.trans h'.symm⟩
  · obtain rfl := h5 hl
    obtain rfl := h5' hl
    rw [List.append_nil] at h h'
    exact ⟨h.trans h'.symm, rfl⟩

/-- The text is determined. -/
theorem streamText_unique {W : Nat} {v : DiyFp} {f : StreamFormat} {width : Int} {t t' : List Nat}
    (h : StreamText W v f width t) (h' : StreamText W v f width t') : t = t' := by
  obtain ⟨F, E, p, q, h1, h2, h3, h4, h5, rfl⟩ := h
  obtain ⟨F', E', p', q', h1', h2', h3', h4', h5', rfl⟩ := h'
  obtain rfl := isBinary_unique h1 h1'
  obtain rfl := shown_unique h2 h2'
  obtain ⟨rfl, rfl⟩ := filling_unique h3 h3' h4 h5 h4' h5'
  rfl

/-! ## C98 -/

/-- **C98, the text.** On a good stream whose buffer refuses nothing, in any format and with
any width: the text is `(f = F, e = E)`, with the mantissa in binary whatever the format,
the exponent as the format says, and the field width spent on the first five characters;
afterwards the width is zero and the format is what it was. -/
theorem C98_text (W : Nat) (hW : W ≤ 64) (v : DiyFp) (hv : v.f < 2 ^ W) (s : Stream) (hg : s.good = true)
    (ha : ∀ o c, s.accepts o c = true) :
    ∃ t, StreamText W v s.fmt s.width t ∧
      v.insertInto W s = { s with width := 0, out := s.out ++ t } := by
  refine ⟨streamText W v s.fmt s.width, ?_, ?_⟩
  · have hF : IsBinary W v.f (printBinaryInt W v.f) := by
      obtain ⟨n, b1, b2⟩ := C52_print_binary_int W hW v.f
      rw [Int.emod_eq_of_lt (by omega) (by exact_mod_cast hv)] at b2
      have : n = v.f := by omega
      rwa [this] at b1
    have hE := int_shown s.fmt v.e
    by_cases hl : s.fmt.adjust = .left
    · refine ⟨_, _, [], List.replicate (s.width - 5).toNat s.fmt.fill, hF, hE, rfl, fun _ => rfl, fun h => absurd hl h, ?_⟩
      unfold streamText
      rw [hl]
      simp
    · refine ⟨_, _, List.replicate (s.width - 5).toNat s.fmt.fill, [], hF, hE, by simp, fun h => absurd h hl, fun _ => rfl, ?_⟩
      unfold streamText
      cases h : s.fmt.adjust with
      | left => exact absurd h hl
      | internal => simp
      | right => simp
  · obtain ⟨h1, h2, h3, text, rest, h4, h5, h6, h7, -⟩ := insertInto_written W v s hg
    cases rest with
    | cons c R => exact absurd (h7 c R rfl) (by rw [ha]; simp)
    | nil =>
      rw [List.append_nil] at h4
      have h8 := h6.mpr rfl
      rw [h4]
      generalize v.insertInto W s = s' at *
      obtain ⟨a, b, c, d, e⟩ := s'
      obtain ⟨a', b', c', d', e'⟩ := s
      simp_all

/-- **C98, the initial state.** With the default format and no width it is the text of C52. -/
theorem C98_default (W : Nat) (hW : W ≤ 64) (v : DiyFp) (hv : v.f < 2 ^ W) (s : Stream) (hg : s.good = true)
    (ha : ∀ o c, s.accepts o c = true) (hf : s.fmt.base = .dec) (hp : s.fmt.showpos = false) (hn : s.fmt.grouping = [])
    (hw : s.width ≤ 5) :
    v.insertInto W s = { s with width := 0, out := s.out ++ v.stream W } := by
  obtain ⟨t, h1, h2⟩ := C98_text W hW v hv s hg ha
  obtain ⟨F, E, k1, k2, ds, d1, d2, d3, k3⟩ := C52_stream W hW v hv
  have : StreamText W v s.fmt s.width (v.stream W) := by
    refine ⟨F, E, [], [], k2, ⟨10, v.e.natAbs, if v.e < 0 then chars "-" else [], ds.map Fin.val, ds.map digitChar, ds.map digitChar, ?_, ?_, ?_, ?_, ?_⟩,
      ?_, fun _ => rfl, fun _ => rfl, ?_⟩
    · exact k3
    · refine ⟨[(ds.map digitChar).reverse], by simp, by simp, by simp [List.intercalate], ?_⟩
      intro i x hx
      cases i with
      | succ i => simp at hx
      | zero =>
        simp only [List.getElem?_cons_zero, Option.some.injEq] at hx
        subst hx
        exact ⟨by simpa using d1, by simp [hn, groupSize]⟩
    · refine ⟨by simpa using d1, ?_, ?_, ?_⟩
      · intro d hd
        obtain ⟨x, -, rfl⟩ := List.mem_map.mp hd
        exact x.2
      · intro h
        cases ds with
        | nil => exact absurd rfl d1
        | cons x ds =>
          have hx : x = 0 := by
            simp only [List.map_cons, List.head?_cons, Option.some.injEq] at h
            exact Fin.ext h
          rw [d2 (by rw [hx]; rfl)]
          rfl
      · rw [List.foldl_map]
        exact d3
    · unfold IsDigitsText
      rw [List.forall₂_map_left_iff, List.forall₂_map_right_iff, List.forall₂_same]
      intro d hd
      clear hd
      generalize s.fmt.uppercase = u
      revert u d
      decide
    · rw [hf]
      exact ⟨rfl, rfl, by rw [hp]; rfl⟩
    · have : (s.width - 5).toNat = 0 := by omega
      rw [this]; rfl
    · rw [k1]; simp
  rw [h2, streamText_unique h1 this]

/-- **C98, a buffer that refuses characters.** Whatever the buffer refuses: what it is given is
the beginning of the text it would have been given otherwise, up to the first character
refused; the stream is good afterwards if and only if that is all of it.  On a stream that
is not good nothing happens. -/
theorem C98_refused (W : Nat) (hW : W ≤ 64) (v : DiyFp) (hv : v.f < 2 ^ W) (s : Stream) :
    (s.good = false → v.insertInto W s = s) ∧
    (s.good = true → ∃ t text rest, StreamText W v s.fmt s.width t ∧ t = text ++ rest ∧
      (v.insertInto W s).out = s.out ++ text ∧ ((v.insertInto W s).good = true ↔ rest = []) ∧
      (v.insertInto W s).fmt = s.fmt ∧
      (∀ a c R, text = a ++ c :: R → s.accepts (s.out ++ a) c = true) ∧
      ∀ c R, rest = c :: R → s.accepts (s.out ++ text) c = false) := by
  refine ⟨insertInto_bad W v s, fun hg => ?_⟩
  obtain ⟨h1, h2, h3, text, rest, h4, h5, h6, h7, h8⟩ := insertInto_written W v s hg
  obtain ⟨t, ht, he⟩ := C98_text W hW v hv { s with accepts := fun _ _ => true } hg (fun _ _ => rfl)
  obtain ⟨-, -, -, text', rest', k4, k5, k6, k7, -⟩ := insertInto_written W v { s with accepts := fun _ _ => true } hg
  have hr : rest' = [] := k6.mp (by rw [he]; exact hg)
  subst hr
  rw [List.append_nil] at k4
  rw [he] at k5
  have : t = text' := List.append_cancel_left k5
  exact ⟨t, text, rest, ht, by rw [this, ← k4, ← h4], h5, h6, h1, h8, h7⟩

/-- **C98, nothing is lost.** In every format the text determines mantissa and exponent. -/
theorem C98_determines (W : Nat) (v w : DiyFp) (f : StreamFormat) (width : Int)
    (hv : -2 ^ 31 ≤ v.e ∧ v.e < 2 ^ 31) (hw : -2 ^ 31 ≤ w.e ∧ w.e < 2 ^ 31) (t : List Nat)
    (h : StreamText W v f width t) (h' : StreamText W w f width t) : v = w := by
  obtain ⟨F, E, p, q, h1, h2, h3, h4, h5, rfl⟩ := h
  obtain ⟨F', E', p', q', h1', h2', h3', h4', h5', e⟩ := h'
  obtain ⟨rfl, rfl⟩ := filling_unique h3 h3' h4 h5 h4' h5'
  simp only [List.append_assoc] at e
  replace e := List.append_cancel_left (List.append_cancel_left (List.append_cancel_left e))
  obtain ⟨hF, e2⟩ := List.append_inj e (by rw [h1.1, h1'.1])
  clear e
  subst hF
  have e := List.append_cancel_right (List.append_cancel_left e2)
  subst e
  have a := isBinary_inj h1 h1'
  have b := shown_inj hv hw h2 h2'
  obtain ⟨x, y⟩ := v
  obtain ⟨z, u⟩ := w
  simp_all

/-- A stream in hexadecimal, with base, filled with `*` to nine characters. -/
def hexStream : Stream where
  fmt := { base := .hex, showbase := true, uppercase := true, fill := '*'.toNat }
  width := 9
  good := true
  accepts := fun _ _ => true
  out := chars "x = "

/-- The width is spent on `(f = `; a negative exponent is shown modulo 2^32. -/
example : ((⟨5, -1⟩ : DiyFp).insertInto 8 hexStream).out = chars "x = ****(f = 00000101, e = 0XFFFFFFFF)" := by
  decide +kernel

/-- The largest exponent in groups of three from the second on. -/
example : ((⟨5, 2147483647⟩ : DiyFp).insertInto 8 { hexStream with fmt := { grouping := [2, 3] }, width := 0 }).out =
    chars "x = (f = 00000101, e = 21,474,836,47)" := by
  decide +kernel

/-- Grouping that ends. -/
example : ((⟨5, -123456⟩ : DiyFp).insertInto 8 { hexStream with fmt := { grouping := [1, 2, 127], sep := '\''.toNat }, width := 0 }).out =
    chars "x = (f = 00000101, e = -123'45'6)" := by
  decide +kernel

/-- A buffer with room for ten characters more: the stream is not good afterwards. -/
example :
    ((⟨5, 1⟩ : DiyFp).insertInto 8 { hexStream with accepts := fun o _ => decide (o.length < 14) }).out =
      chars "x = ****(f = 0" ∧
    ((⟨5, 1⟩ : DiyFp).insertInto 8 { hexStream with accepts := fun o _ => decide (o.length < 14) }).good = false := by
  decide +kernel

/-- **C98, the width does not apply to the whole.** With a field width of 25 the text,
without padding 21 characters, becomes one of 41 characters, and (adjusted to the left) the
padding is inside. -/
theorem C98_width_refuted :
    ((⟨5, 1⟩ : DiyFp).insertInto 8 { hexStream with fmt := { adjust := .left }, width := 25, out := [] }).out =
      chars "(f = " ++ List.replicate 20 ' '.toNat ++ chars "00000101, e = 1)" ∧
    (chars "(f = 00000101, e = 1)").length = 21 ∧
    (chars "(f = " ++ List.replicate 20 ' '.toNat ++ chars "00000101, e = 1)").length = 41 := by
  decide +kernel

end Floaxie
