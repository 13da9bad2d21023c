import Verif.Core.ConvLemmas
/-!
Properties of the conversion between character sets: C61 to C63 and C88 to C90.
-/
set_option linter.unusedSimpArgs false
namespace Verif.Conv
open Verif

theorem utf8_works : Page.utf8.works := ⟨fun h => (by cases h), fun h => (by cases h)⟩

/-- The bytes of a character by the table of RFC 3629, in decimal arithmetic. -/
def rfcUtf8 (ch : Nat) : List Nat :=
  if ch < 128 then [ch]
  else if ch < 2048 then [192 + ch / 64, 128 + ch % 64]
  else if ch < 65536 then [224 + ch / 4096, 128 + ch / 64 % 64, 128 + ch % 64]
  else [240 + ch / 262144, 128 + ch / 4096 % 64, 128 + ch / 64 % 64, 128 + ch % 64]

theorem rfcUtf8_eq (ch : Nat) (h : ch < 0x110000) : rfcUtf8 ch = utf8Enc ch := by
  rw [utf8Enc_eq, rfcUtf8]
  by_cases h1 : ch < 0x80
  · rw [if_pos h1, if_pos h1]
  · rw [if_neg h1, if_neg h1]
    by_cases h2 : ch < 0x800
    · rw [if_pos h2, if_pos h2, Nat.mod_eq_of_lt (a := ch / 64) (by omega)]
    · rw [if_neg h2, if_neg h2]
      by_cases h3 : ch < 0x10000
      · rw [if_pos h3, if_pos h3, Nat.mod_eq_of_lt (a := ch / 4096) (by omega)]
      · rw [if_neg h3, if_neg h3, Nat.mod_eq_of_lt (a := ch / 262144) (by omega)]

theorem flatMap_rfc (chs : List Nat) (h : ∀ ch ∈ chs, ch < 0x110000) : chs.flatMap rfcUtf8 = chs.flatMap utf8Enc := by
  induction chs with
  | nil => rfl
  | cons c cs ih =>
    rw [List.flatMap_cons, List.flatMap_cons, ih fun x hx => h x (List.mem_cons_of_mem _ hx), rfcUtf8_eq c (h c (List.mem_cons_self ..))]

/-- C61. Every code point is written as the bytes of RFC 3629 when there is room for them and a
terminator, is left out otherwise, and these bytes in front of anything are read back as the code
point and taken exactly. -/
theorem C61_utf8_round_trip (ch : Nat) (h : ch < 0x110000) :
    (∀ (o : Out) (left : Nat), 1 ≤ left → o.buf.length + left = o.cap →
      Page.writeCh .utf8 o left ch =
        if (rfcUtf8 ch).length < left then some (⟨o.cap, o.buf ++ rfcUtf8 ch⟩, left - (rfcUtf8 ch).length) else some (o, left)) ∧
    ∀ rest, Page.readCh .utf8 (rfcUtf8 ch ++ rest) = some (ch, rest) := by
  rw [rfcUtf8_eq ch h]
  exact ⟨fun o left hl ho => writeUtf8_spec o left ch hl ho, fun rest => readUtf8_enc ch (by omega) rest⟩

/-- The euro sign and an emoji. -/
example : rfcUtf8 0x20ac = [0xe2, 0x82, 0xac] ∧ rfcUtf8 0x1f600 = [0xf0, 0x9f, 0x98, 0x80] ∧
    Page.writeCh .utf8 ⟨9, [1, 2]⟩ 7 0x20ac = some (⟨9, [1, 2, 0xe2, 0x82, 0xac]⟩, 4) ∧
    Page.readCh .utf8 [0xf0, 0x9f, 0x98, 0x80, 0x41] = some (0x1f600, [0x41]) := by decide

/-- C62. In each of the eight pages of one byte per character, a byte is read as the character of
the page's table, and that character is written as the same byte. -/
theorem C62_code_page_bytes (p : Page) (hp : p.simple) (b : Nat) (hb : b < 256) :
    ∃ ch, (∀ rest, p.readCh (b :: rest) = some (ch, rest)) ∧
      ∀ (o : Out) (left : Nat), 2 ≤ left → o.buf.length + left = o.cap →
        p.writeCh o left ch = some (⟨o.cap, o.buf ++ [b]⟩, left - 1) := by
  obtain ⟨t, ht, hr, hw⟩ := simple_tables p hp
  obtain ⟨l1, _, l3, _⟩ := tablesOk_spec t (tablesOk_all t ⟨p, ht⟩)
  refine ⟨chOf t.1 b, fun rest => by rw [hr, readSimple_cons t.1 l1 b rest hb], fun o left hl ho => ?_⟩
  rw [writeCh_spec p hp.1 o left _ (by omega) ho, simple_enc p hp t ht, (l3 b hb).1, List.length_singleton, if_pos (by omega)]

/-- C62, for every character: it is written as a byte that is read as that character, or else as a
question mark, and then no byte of the page is read as that character. -/
theorem C62_code_page_characters (p : Page) (hp : p.simple) (ch : Nat) (o : Out) (left : Nat) (hl : 2 ≤ left)
    (ho : o.buf.length + left = o.cap) :
    ∃ b < 256, p.writeCh o left ch = some (⟨o.cap, o.buf ++ [b]⟩, left - 1) ∧
      (p.readCh [b] = some (ch, []) ∨ (b = 63 ∧ ∀ b' < 256, p.readCh [b'] ≠ some (ch, []))) := by
  obtain ⟨t, ht, hr, hw⟩ := simple_tables p hp
  have hok := tablesOk_all t ⟨p, ht⟩
  obtain ⟨l1, _, l3, _⟩ := tablesOk_spec t hok
  obtain ⟨s1, s2⟩ := byteFor_sound t hok ch
  refine ⟨byteFor t.1 t.2 ch, s1, ?_, ?_⟩
  · rw [writeCh_spec p hp.1 o left _ (by omega) ho, simple_enc p hp t ht, List.length_singleton, if_pos (by omega)]
  · rcases s2 with s2 | s2
    · left; rw [hr, readSimple_cons t.1 l1 _ _ s1, s2]
    · by_cases hc : chOf t.1 (byteFor t.1 t.2 ch) = ch
      · left; rw [hr, readSimple_cons t.1 l1 _ _ s1, hc]
      · right
        refine ⟨s2, fun b' hb' h => ?_⟩
        rw [hr, readSimple_cons t.1 l1 _ _ hb'] at h
        have : chOf t.1 b' = ch := congrArg Prod.fst (Option.some.inj h)
        have e := (l3 b' hb').1
        rw [this] at e
        rw [e] at hc
        exact hc this

/-- The euro sign of the Cyrillic page, the Cyrillic small be of the same, and a character it does
not have. -/
example : Page.writeCh .cp1251 ⟨4, []⟩ 4 0x20ac = some (⟨4, [0x88]⟩, 3) ∧ Page.readCh .cp1251 [0xe1] = some (0x431, []) ∧
    Page.writeCh .cp1251 ⟨4, []⟩ 4 0xe9 = some (⟨4, [63]⟩, 3) := by decide

/-- C63. Converting between any two of the pages but UTF-16 and UTF-32: for every string and every
size of the buffer but 0, only bytes inside the buffer are stored, nothing is read behind the
terminator of the string, and the result is terminated. When the string is the UTF-8 form of
characters other than NUL, or a string of one of the 8-bit pages, and the buffer has room for the
result and a terminator, every character is there. The full statement fails, see below. -/
theorem C63_bounded_and_terminated_partial (f t : Page) (hf : f.works) (ht : t.works) (n : Nat) (hn : 0 < n) :
    (∀ s : List Nat, (∀ b ∈ s, b < 256) → ∃ w, convSS f t n s = some (w ++ [0]) ∧ w.length < n) ∧
    (∀ chs : List Nat, (∀ ch ∈ chs, ch ≠ 0 ∧ ch < 0x110000) → f = .utf8 → t ≠ .utf8 → (chs.flatMap t.enc).length < n →
      convSS f t n (chs.flatMap rfcUtf8) = some (chs.flatMap t.enc ++ [0])) ∧
    (∀ s : List Nat, (∀ b ∈ s, b < 256 ∧ b ≠ 0) → f.simple → f ≠ t → ∀ chs : List Nat,
      s.map (fun b => f.readCh [b]) = chs.map (fun ch => some (ch, [])) → (chs.flatMap t.enc).length < n →
      convSS f t n s = some (chs.flatMap t.enc ++ [0])) ∧
    (∀ s : List Nat, f = t → s.length < n → convSS f t n s = some (s ++ [0])) := by
  refine ⟨fun s hs => convSS_safe f t hf ht s n hs hn, fun chs hc hf8 ht8 hl => ?_, fun s hs hsim hne chs hm hl => ?_,
    fun s he hl => ?_⟩
  · subst hf8
    rw [flatMap_rfc chs fun ch h => (hc ch h).2]
    exact convSS_full .utf8 t (fun h => ht8 h.symm) ht _ chs n (utf8_decodes chs fun ch h => ⟨(hc ch h).1, by have := (hc ch h).2; omega⟩) hl
  · obtain ⟨tb, htb, hr, _⟩ := simple_tables f hsim
    have l1 := (tablesOk_spec tb (tablesOk_all tb ⟨f, htb⟩)).1
    have he : s.map (chOf tb.1) = chs := by
      clear hl
      induction s generalizing chs with
      | nil => cases chs with
        | nil => rfl
        | cons c cs => cases hm
      | cons b s ih =>
        cases chs with
        | nil => cases hm
        | cons c cs =>
          rw [List.map_cons, List.map_cons, List.cons.injEq, hr, readSimple_cons tb.1 l1 _ _ (hs b (List.mem_cons_self ..)).1] at hm
          rw [List.map_cons, ih (fun x hx => hs x (List.mem_cons_of_mem _ hx)) cs hm.2]
          exact congrArg (· :: cs) (congrArg Prod.fst (Option.some.inj hm.1))
    rw [← he] at hl ⊢
    exact convSS_full f t hne ht s _ n (simple_decodes f hsim tb htb s hs) hl
  · subst he
    rw [convSS, if_pos hn, if_pos rfl, Nat.min_eq_left (by omega), List.take_length, push_ok _ _ (by simp; omega)]
    rfl

/-- "Aé" from the Western page to UTF-8. -/
example : convSS .cp1252 .utf8 8 [0x41, 0xe9] = some [0x41, 0xc3, 0xa9, 0] := by decide

/-- C63 is false: with UTF-16 as one of the pages the call goes through a NULL pointer. -/
theorem C63_utf16_page_counterexample : convSS .utf16 .utf8 8 [0x41] = none ∧ convSS .utf8 .utf32 8 [0x41] = none ∧
    convUS .utf16 8 [0x41] = none := by decide

/-- C63 is false: an overlong NUL in UTF-8 input (C0 80) becomes a terminator in the middle of the
result, and "A" behind it is lost to a reader of the result although the buffer is large enough. -/
theorem C63_overlong_nul_counterexample : convSS .utf8 .cp1252 20 [0xc0, 0x80, 0x41] = some [0, 0x41, 0] := by decide

/-- C88. A string of any of the 8-bit pages converted to UTF-8 and back with enough room is the
same string. -/
theorem C88_page_to_utf8_and_back (p : Page) (hp : p.simple) (s : List Nat) (hs : ∀ b ∈ s, b < 256 ∧ b ≠ 0) (n m : Nat)
    (hn : 3 * s.length < n) (hm : s.length < m) :
    ∃ u, convSS p .utf8 n s = some (u ++ [0]) ∧ convSS .utf8 p m u = some (s ++ [0]) := by
  obtain ⟨t, ht, _, _⟩ := simple_tables p hp
  have hok := tablesOk_all t ⟨p, ht⟩
  obtain ⟨l1, _, l3, _⟩ := tablesOk_spec t hok
  have hlen : ((s.map (chOf t.1)).flatMap utf8Enc).length ≤ 3 * s.length := by
    clear hn hm
    induction s with
    | nil => exact Nat.zero_le _
    | cons b s ih =>
      have hx := (l3 b (hs b (List.mem_cons_self ..)).1).2
      have : utf8Len (chOf t.1 b) ≤ 3 := by
        unfold utf8Len
        split
        · omega
        · split
          · omega
          · rw [if_pos (by omega)]; omega
      rw [List.map_cons, List.flatMap_cons, List.length_append, List.length_cons, utf8Enc_length]
      have := ih fun x hx => hs x (List.mem_cons_of_mem _ hx)
      omega
  have hback := simple_enc_chOf p hp t ht s fun b hb => (hs b hb).1
  refine ⟨(s.map (chOf t.1)).flatMap utf8Enc,
    convSS_full p .utf8 hp.2 utf8_works s _ n (simple_decodes p hp t ht s hs) (Nat.lt_of_le_of_lt hlen hn), ?_⟩
  have hd : Decodes (Page.readCh .utf8) ((s.map (chOf t.1)).flatMap utf8Enc) (s.map (chOf t.1)) := by
    refine utf8_decodes _ fun ch hc => ?_
    obtain ⟨b, hb, e⟩ := List.mem_map.1 hc
    subst e
    have := (l3 b (hs b hb).1).2
    exact ⟨chOf_ne_zero t hok b (hs b hb).1 (hs b hb).2, by omega⟩
  have := convSS_full .utf8 p (fun h => hp.2 h.symm) hp.1 _ _ m hd (by rw [hback]; exact hm)
  rwa [hback] at this

/-- Greek letters. -/
example : convSS .cp1253 .utf8 7 [0xe1, 0xe2] = some [0xce, 0xb1, 0xce, 0xb2, 0] ∧
    convSS .utf8 .cp1253 3 [0xce, 0xb1, 0xce, 0xb2] = some [0xe1, 0xe2, 0] := by decide

/-- The UTF-16 form of a code point. -/
def rfcUtf16 (ch : Nat) : List Nat :=
  if ch < 65536 then [ch] else [0xd800 + (ch - 65536) / 1024, 0xdc00 + (ch - 65536) % 1024]

theorem rfcUtf16_eq (ch : Nat) (h : ch < 0x110000) : rfcUtf16 ch = utf16Enc ch := by
  rw [rfcUtf16, utf16Enc]
  by_cases c : ch < 65536
  · have c' : ¬ ch ≥ 65536 := by omega
    rw [if_pos c, if_neg c']
  · have e1 : (ch - 65536) / 1024 % 1024 = (ch - 65536) / 1024 := by omega
    have e2 : (ch - 65536) % 1024 = ch % 1024 := by omega
    have c' : ch ≥ 65536 := by omega
    rw [if_neg c, if_pos c', e1, e2]

theorem flatMap_rfc16 : ∀ chs : List Nat, (∀ ch ∈ chs, ch < 0x110000) → chs.flatMap rfcUtf16 = chs.flatMap utf16Enc
  | [], _ => by rw [List.flatMap_nil, List.flatMap_nil]
  | c :: cs, h => by
    have e1 := flatMap_rfc16 cs fun x hx => h x (List.mem_cons_of_mem _ hx)
    have e2 := rfcUtf16_eq c (h c (List.mem_cons_self ..))
    rw [List.flatMap_cons, List.flatMap_cons, e1, e2]

/-- C89. UTF-8 text without NUL goes to UTF-16 and back unchanged, given room. -/
theorem C89_utf8_utf16_round_trip (chs : List Nat)
    (h : ∀ ch ∈ chs, ch ≠ 0 ∧ (ch < 0xd800 ∨ (0xe000 ≤ ch ∧ ch < 0x110000))) (n m : Nat)
    (hn : (chs.flatMap rfcUtf16).length < n) (hm : (chs.flatMap rfcUtf8).length < m) :
    convUS .utf8 n (chs.flatMap rfcUtf8) = some (chs.flatMap rfcUtf16 ++ [0]) ∧
    convSU .utf8 m (chs.flatMap rfcUtf16) = some (chs.flatMap rfcUtf8 ++ [0]) := by
  have hlt : ∀ ch ∈ chs, ch < 0x110000 := fun ch hc => by have := (h ch hc).2; omega
  rw [flatMap_rfc chs hlt] at hm ⊢
  rw [flatMap_rfc16 chs hlt] at hn ⊢
  exact ⟨convUS_full .utf8 _ chs n (utf8_decodes chs fun ch hc => ⟨(h ch hc).1, by have := hlt ch hc; omega⟩)
      (fun ch hc => by have := hlt ch hc; omega) hn,
    convSU_full .utf8 utf8_works _ chs m (utf16_decodes chs h) hm⟩

/-- C89, for the 8-bit pages: any string without NUL goes to UTF-16 and back unchanged. -/
theorem C89_page_utf16_round_trip (p : Page) (hp : p.simple) (s : List Nat) (hs : ∀ b ∈ s, b < 256 ∧ b ≠ 0) (n m : Nat)
    (hn : s.length < n) (hm : s.length < m) :
    ∃ u, convUS p n s = some (u ++ [0]) ∧ convSU p m u = some (s ++ [0]) := by
  obtain ⟨t, ht, _, _⟩ := simple_tables p hp
  have hok := tablesOk_all t ⟨p, ht⟩
  obtain ⟨l1, _, l3, _⟩ := tablesOk_spec t hok
  have hsc : ∀ ch ∈ s.map (chOf t.1), ch ≠ 0 ∧ scalar ch ∧ ch < 0x10000 := fun ch hc => by
    obtain ⟨b, hb, e⟩ := List.mem_map.1 hc
    subst e
    have := (l3 b (hs b hb).1).2
    exact ⟨chOf_ne_zero t hok b (hs b hb).1 (hs b hb).2, by unfold scalar; omega, by omega⟩
  have hlen : ((s.map (chOf t.1)).flatMap utf16Enc).length = s.length := by
    generalize hg : s.map (chOf t.1) = cs at hsc
    have : s.length = cs.length := by rw [← hg, List.length_map]
    rw [this]
    clear hg this
    induction cs with
    | nil => rfl
    | cons c cs ih =>
      rw [List.flatMap_cons, List.length_append, List.length_cons, ih fun x hx => hsc x (List.mem_cons_of_mem _ hx), utf16Enc,
        if_neg (by have := (hsc c (List.mem_cons_self ..)).2.2; omega), List.length_singleton, Nat.add_comm]
  have hback := simple_enc_chOf p hp t ht s fun b hb => (hs b hb).1
  refine ⟨(s.map (chOf t.1)).flatMap utf16Enc,
    convUS_full p s _ n (simple_decodes p hp t ht s hs) (fun ch hc => by have := (hsc ch hc).2.2; omega) (by rw [hlen]; exact hn), ?_⟩
  have := convSU_full p hp.1 _ _ m (utf16_decodes _ fun ch hc => ⟨(hsc ch hc).1, (hsc ch hc).2.1⟩) (by rw [hback]; exact hm)
  rwa [hback] at this

/-- An emoji, and a string of the Western page. -/
example : convUS .utf8 4 [0xf0, 0x9f, 0x98, 0x80, 0x41] = some [0xd83d, 0xde00, 0x41, 0] ∧
    convSU .utf8 6 [0xd83d, 0xde00, 0x41] = some [0xf0, 0x9f, 0x98, 0x80, 0x41, 0] ∧
    convUS .cp1252 3 [0x80, 0x41] = some [0x20ac, 0x41, 0] ∧ convSU .cp1252 3 [0x20ac, 0x41] = some [0x80, 0x41, 0] := by decide

/-- C89 and C63 for arbitrary input: the conversions to and from UTF-16 keep to their buffers and
strings whatever the input is, and terminate the result. -/
theorem C89_utf16_bounded (p : Page) (hp : p.works) (n : Nat) (hn : 0 < n) :
    (∀ s : List Nat, (∀ b ∈ s, b < 256) → ∃ w, convUS p n s = some (w ++ [0]) ∧ w.length < n) ∧
    (∀ u : List Nat, (∀ b ∈ u, b < 0x10000) → ∃ w, convSU p n u = some (w ++ [0]) ∧ w.length < n) :=
  ⟨fun s hs => convUS_safe p hp s n hs hn, fun u hu => convSU_safe p hp u n hu hn⟩

/-- A lone high half in front of the terminator. -/
example : convSU .utf8 9 [0xd83d] = some [0xed, 0xa0, 0xbd, 0] := by decide

/-- C90. Converting to a page of one byte per character into a buffer too small gives the first
part of the whole result. Missing: this is false for UTF-8 and UTF-16 results. -/
theorem C90_cut_is_prefix_partial (f t : Page) (ht : t.simple) (hne : f ≠ t) (s chs : List Nat) (n : Nat) (hn : 0 < n)
    (hd : (f = .utf8 ∧ s = chs.flatMap rfcUtf8 ∧ ∀ ch ∈ chs, ch ≠ 0 ∧ ch < 0x110000) ∨
      (f.simple ∧ (∀ b ∈ s, b < 256 ∧ b ≠ 0) ∧ Decodes f.readCh s chs)) :
    convSS f t n s = some ((chs.flatMap t.enc).take (n - 1) ++ [0]) := by
  have hdec : Decodes f.readCh s chs := by
    rcases hd with ⟨h1, h2, h3⟩ | ⟨_, _, h⟩
    · subst h1 h2
      rw [flatMap_rfc chs fun ch hc => (h3 ch hc).2]
      exact utf8_decodes chs fun ch hc => ⟨(h3 ch hc).1, by have := (h3 ch hc).2; omega⟩
    · exact h
  rw [convSS, if_pos hn, if_neg hne, convLoop_eq]
  obtain ⟨left', e⟩ := gloop_prefix t ht f.readCh (s.length + 1) s chs ⟨n, []⟩ n (by omega) hdec hn
    (by simp only [List.length_nil]; omega)
  rw [e]
  simp only [List.nil_append]
  rw [push_ok _ _ (by simp only [List.length_take, List.length_singleton]; omega)]
  rfl

/-- Two of three characters fit. -/
example : convSS .utf8 .cp1252 3 [0xc3, 0xa9, 0x41, 0x42] = some [0xe9, 0x41, 0] := by decide

/-- C90 is false for UTF-8: "éA" converted into two bytes gives "A": the character that does not
fit is left out and the next one is stored. -/
theorem C90_utf8_counterexample : convSS .cp1252 .utf8 2 [0xe9, 0x41] = some [0x41, 0] ∧
    convSS .cp1252 .utf8 9 [0xe9, 0x41] = some [0xc3, 0xa9, 0x41, 0] := by decide

/-- C90 is false for UTF-16: U+10041 converted into two units gives "A". -/
theorem C90_utf16_counterexample : convUS .utf8 2 [0xf0, 0x90, 0x81, 0x81] = some [0x41, 0] ∧
    convUS .utf8 9 [0xf0, 0x90, 0x81, 0x81] = some [0xd800, 0xdc41, 0] := by decide

end Verif.Conv
