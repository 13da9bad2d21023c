import Verif.Ebml.Text
import Verif.Props.Conv
/-!
C211 to C213: text for a buffer, text elements, wide text.
-/
namespace Verif.Ebml.Text

/-! ### C211: a converted text stays in its buffer -/

/-- The text in a buffer, up to its terminator; `none` if there is no terminator. -/
def textOf (out : Bytes) : Option Bytes :=
  if (0 : UInt8) ∈ out then some (out.takeWhile (· ≠ 0)) else none

/-- What the caller expects of a buffer of `n` bytes. -/
def StaysInside : Prop :=
  ∀ (cc : Conv) (n : Nat) (s : Bytes), 1 ≤ n → ∃ out, convSS cc n n s = some out ∧ out.length ≤ n ∧ (textOf out).isSome

theorem iconvInto_none (n : Nat) (s : Bytes) : iconvInto none n s = none := rfl

theorem iconvInto_length (cc : Conv) (n : Nat) (s w : Bytes) (h : iconvInto cc n s = some w) :
    w.length ≤ n ∧ ∃ f, cc = some f ∧ f s = some w := by
  cases cc with
  | none => simp [iconvInto] at h
  | some f =>
    simp only [iconvInto] at h
    split at h
    · rename_i w' hw
      split at h
      · rename_i hl
        injection h with h
        subst h
        exact ⟨hl, f, rfl, hw⟩
      · cases h
    · cases h

/-- C211. Unless the converted text and its terminator fill the buffer to the last byte, the
conversion writes no byte behind the buffer and leaves a terminated text there: the converted one
if it fits, and otherwise as much of the text *as it was given* as fits. -/
theorem C211_inside_partial (cc : Conv) (n : Nat) (s : Bytes) (hn : 1 ≤ n) (hs : (0 : UInt8) ∉ s)
    (hfill : ∀ f w, cc = some f → f (s ++ [0]) = some w → w.length ≠ n) :
    ∃ out, convSS cc n n s = some out ∧ out.length ≤ n ∧
      ((∀ f w, cc = some f → f (s ++ [0]) = some w → w.length < n → out = w ++ [0]) ∧
       ((∀ f w, cc = some f → f (s ++ [0]) = some w → n < w.length) → textOf out = some (s.take (n - 1)))) ∧
      (textOf out).isSome := by
  have hraw : ∀ (t : Bytes), (0 : UInt8) ∉ t → textOf (t ++ [0]) = some t := by
    intro t ht
    have : (t ++ [0]).takeWhile (fun x : UInt8 => decide (x ≠ 0)) = t := by
      rw [List.takeWhile_append_of_pos]
      · simp
      · intro a ha
        simp only [decide_eq_true_eq]
        intro h
        exact ht (h ▸ ha)
    rw [textOf, if_pos (by simp), this]
  have htake : (0 : UInt8) ∉ s.take (n - 1) := fun h => hs (List.mem_of_mem_take h)
  cases hi : iconvInto cc n (s ++ [0]) with
  | none =>
    refine ⟨s.take (n - 1) ++ [0], ?_, ?_, ⟨?_, fun _ => hraw _ htake⟩, ?_⟩
    · simp only [convSS, hi, List.length_append, List.length_take, List.length_singleton]
      rw [if_neg (by omega), if_pos (by omega)]
    · simp only [List.length_append, List.length_take, List.length_singleton]
      omega
    · intro f w hf hw hlt
      subst hf
      simp only [iconvInto, hw, if_pos (Nat.le_of_lt hlt)] at hi
      cases hi
    · rw [hraw _ htake]
      rfl
  | some w =>
    obtain ⟨hl, f, hf, hw⟩ := iconvInto_length cc n _ w hi
    have hne := hfill f w hf hw
    refine ⟨w ++ [0], ?_, ?_, ⟨?_, ?_⟩, ?_⟩
    · simp only [convSS, hi, List.length_append, List.length_singleton]
      rw [if_neg (by omega), if_pos (by omega)]
    · simp only [List.length_append, List.length_singleton]
      omega
    · intro g v hg hv _
      rw [hf] at hg
      injection hg with hg
      subst hg
      rw [hw] at hv
      injection hv with hv
      rw [hv]
    · intro h
      have := h f w hf hw
      omega
    · rw [textOf, if_pos (by simp)]
      rfl

/-- Latin-1 to UTF-8, as `iconv` does it. -/
def latin1 : Bytes → Option Bytes
  | s => some (s.flatMap fun b => if b < 128 then [b] else [UInt8.ofNat (192 + b.toNat / 64), UInt8.ofNat (128 + b.toNat % 64)])

/-- "é!" for ten bytes and for three. -/
example : convSS (some latin1) 10 10 [0xe9, 33] = some [0xc3, 0xa9, 33, 0, 0] ∧
    convSS (some latin1) 3 3 [0xe9, 33] = some [0xe9, 33, 0] := by decide

/-- C211. Whatever is converted: a text whose conversion, with the terminator, has exactly as many
bytes as the buffer is followed by a byte written behind the buffer. -/
theorem C211_overrun (f : Bytes → Option Bytes) (s w : Bytes) (hw : f (s ++ [0]) = some w) (h1 : 1 ≤ w.length) :
    convSS (some f) w.length w.length s = none := by
  simp only [convSS, iconvInto, hw, Nat.le_refl, if_true, List.length_append, List.length_singleton]
  rw [if_neg (by omega), if_neg (by omega)]

/-- C211. The expectation does not hold: "abc" for a buffer of four bytes. -/
theorem C211_counterexample : ¬ StaysInside ∧ convSS (some latin1) 4 4 [97, 98, 99] = none := by
  have h4 : convSS (some latin1) 4 4 [97, 98, 99] = none := by decide
  refine ⟨fun h => ?_, h4⟩
  obtain ⟨out, ho, _⟩ := h (some latin1) 4 [97, 98, 99] (by decide)
  rw [h4] at ho
  cases ho

theorem unitBytes_length (k u : Nat) : (unitBytes k u).length = k := by
  induction k generalizing u with
  | zero => rfl
  | succ k ih => simp [unitBytes, ih]

/-- C211. To UTF-16 (`k = 2`) and to wide characters (`k = 4`) the same holds: the conversion and a
further terminator stay in the buffer if there is room for both, and if only the conversion fits,
the terminator is written behind the buffer. -/
theorem C211_wide (k : Nat) (f : Bytes → Option Bytes) (n : Nat) (hn : 1 ≤ n) (s w : Bytes)
    (hw : f (s ++ [0]) = some w) (hfit : w.length ≤ n * k) :
    convKS k (some f) n n s = if w.length + k ≤ n * k then some (w ++ List.replicate k 0) else none := by
  have hz : ∀ k, unitBytes k 0 = List.replicate k 0 := by
    intro k
    induction k with
    | zero => rfl
    | succ k ih => rw [unitBytes, List.replicate_succ, ← ih]; rfl
  simp only [convKS, iconvInto, hw, if_pos hfit, List.length_append, hz, List.length_replicate]
  rw [if_neg (by omega)]

/-- "a" in UTF-16 for buffers of three units and of two. -/
example : convKS 2 (some fun s => some (s.flatMap fun b => [b, 0])) 3 3 [97] = some [97, 0, 0, 0, 0, 0] ∧
    convKS 2 (some fun s => some (s.flatMap fun b => [b, 0])) 2 2 [97] = none := by decide

/-! ### C212: text elements -/

/-- The bytes of the text after conversion: the text itself when nothing is converted. -/
def Converts (cc : Conv) (a b : Bytes) : Prop :=
  match cc with
  | none => b = a
  | some f => f (a ++ [0]) = some (b ++ [0])

/-- What a user expects of a text element: the text set is stored and found again. -/
def TextComesBack : Prop :=
  ∀ (b : Base) (dflt : Option Leaf) (v : Leaf) (text : Bytes), (0 : UInt8) ∉ text →
    ∃ e, setUni none text (.leaf b dflt v) = some e ∧
      ∃ b' d', e = .leaf b' d' (.str (some text))

theorem cstr_append_zero (t r : Bytes) (h : (0 : UInt8) ∉ t) : cstr (t ++ 0 :: r) = t := by
  unfold cstr
  rw [List.takeWhile_append_of_pos]
  · simp
  · intro a ha
    simp only [ne_eq, decide_not, Bool.not_eq_true', decide_eq_false_iff_not]
    intro hz
    exact h (hz ▸ ha)

theorem cstr_self (t : Bytes) (h : (0 : UInt8) ∉ t) : cstr t = t := by
  induction t with
  | nil => rfl
  | cons a t ih =>
    have ha : a ≠ 0 := fun hz => h (hz ▸ List.mem_cons_self ..)
    unfold cstr at ih ⊢
    rw [List.takeWhile_cons_of_pos (by simpa using ha), ih fun hm => h (List.mem_cons_of_mem _ hm)]

/-- A conversion with room. -/
theorem convSS_fits (cc : Conv) (cap n : Nat) (a b : Bytes) (hc : Converts cc a b) (hcap : n ≤ cap)
    (hl : b.length < n) (hroom : cc.isSome → b.length + 2 ≤ cap) :
    ∃ r, convSS cc cap n a = some (b ++ 0 :: r) := by
  cases cc with
  | none =>
    simp only [Converts] at hc
    subst hc
    refine ⟨[], ?_⟩
    simp only [convSS, iconvInto, List.length_append, List.length_take, List.length_singleton]
    rw [if_neg (by omega), if_pos (by omega), List.take_of_length_le (by omega)]
  | some f =>
    simp only [Converts] at hc
    have := hroom rfl
    refine ⟨[0], ?_⟩
    have h1 : (b ++ [0]).length ≤ n := by rw [List.length_append, List.length_singleton]; omega
    have h2 : (b ++ [0] ++ [0]).length ≤ cap := by
      rw [List.length_append, List.length_append, List.length_singleton]; omega
    simp only [convSS, iconvInto, hc, if_pos h1, if_pos h2]
    rw [if_neg (by omega), List.append_assoc]
    rfl

/-- C212. A text of at most 2046 bytes of UTF-8 set on a Unicode text element is written as exactly
these bytes behind the element's head, with their number in the head, and an element read from them
gives the text back, for every locale whose character set can tell the text and for every buffer
with room for it (two bytes for the end if there is a conversion). -/
theorem C212_text_partial (env : Env) (to frm frmStr : Conv) (text u : Bytes) (b : Base) (dflt : Option Leaf) (v : Leaf)
    (hto : Converts to text u) (hfrm : Converts frm u text) (ht : (0 : UInt8) ∉ text) (hu : (0 : UInt8) ∉ u)
    (hlen : u.length ≤ 2046) (n : Nat) (hn : text.length + (if frm.isSome then 1 else 0) < n) (fuel : Nat) :
    ∃ e b', setUni to text (.leaf b dflt v) = some e ∧
      render env true (fuel + 1) e = .ok (renderHead b' ++ u) ∧ b'.id = b.id ∧ b'.dataSize = u.length ∧
      ∃ p, Scan.readLeaf env u .str = some (.str (some p)) ∧
        ∃ out, stringGet true frm frmStr n n (some p) = some out ∧ textOf out = some text := by
  obtain ⟨r, hr⟩ := convSS_fits to 2048 2047 text u hto (by omega) (by omega) (fun _ => by omega)
  refine ⟨_, { b with valueSet := true, needUpdate := false, dataSize := u.length }, by rw [setUni, hr]; rfl, ?_, rfl, rfl, u, rfl, ?_⟩
  · show render env true (fuel + 1) (setString (cstr (u ++ 0 :: r)) _) = _
    rw [cstr_append_zero u r hu]
    simp only [render, setString, Elt.base, needs, Bool.true_or, Bool.not_true, Bool.false_and, if_false, Bool.false_eq_true]
    simp only [renderLeafData]
    rw [if_neg (by omega)]
    simp only [Int.toNat_natCast, Res.prepend]
    rw [List.take_append_of_le_length (by omega), List.take_length]
  · have hroom : frm.isSome → text.length + 2 ≤ n := by
      intro h
      simp only [h, if_true] at hn
      omega
    have hlt : text.length < n := by
      split at hn <;> omega
    obtain ⟨q, hq⟩ := convSS_fits frm n n u text hfrm (by omega) hlt hroom
    refine ⟨text ++ 0 :: q, ?_, ?_⟩
    · rw [stringGet]
      simp only [if_true]
      rw [cstr_self u hu, hq]
    · have h1 : (0 : UInt8) ∈ text ++ 0 :: q := by simp
      rw [textOf, if_pos h1]
      exact congrArg some (cstr_append_zero text q ht)

/-- UTF-8 of the first 256 characters back to Latin-1. -/
def toLatin1 : Bytes → Option Bytes
  | [] => some []
  | a :: rest =>
    if a < 128 then (toLatin1 rest).map (a :: ·)
    else match rest with
      | [] => none
      | c :: rest => (toLatin1 rest).map (UInt8.ofNat ((a.toNat - 192) * 64 + (c.toNat - 128)) :: ·)

/-- "é!" in a Latin-1 locale, with its two converters, for a buffer of four bytes. -/
example : Converts (some latin1) [0xe9, 33] [0xc3, 0xa9, 33] ∧ Converts (some toLatin1) [0xc3, 0xa9, 33] [0xe9, 33] ∧
    ∃ e, setUni (some latin1) [0xe9, 33] (.leaf ⟨0x7BA9, -1, 0, false, true, true⟩ none (.str none)) = some e ∧
      render ⟨fun _ => 0, fun _ => 0, fun _ _ => false, true, 0⟩ true 1 e = .ok [0x7b, 0xa9, 0x83, 0xc3, 0xa9, 33] ∧
      stringGet true (some toLatin1) none 4 4 (some [0xc3, 0xa9, 33]) = some [0xe9, 33, 0, 0] := by
  refine ⟨by simp only [Converts]; decide +kernel, by simp only [Converts]; decide +kernel, _, rfl, by decide +kernel, by decide +kernel⟩

/-- C212. Where nothing is converted (a UTF-8 locale), a text of more than 2046 bytes is cut behind
its 2046th byte, and nothing tells so. -/
theorem C212_cut (text : Bytes) (b : Base) (dflt : Option Leaf) (v : Leaf) (ht : (0 : UInt8) ∉ text)
    (hlen : 2046 < text.length) :
    ∃ e b', setUni none text (.leaf b dflt v) = some e ∧ e = .leaf b' dflt (.str (some (text.take 2046))) ∧
      b'.dataSize = 2046 ∧ b'.valueSet = true := by
  have h0 : (0 : UInt8) ∉ text.take 2046 := fun h => ht (List.mem_of_mem_take h)
  have hc : convSS none 2048 2047 text = some (text.take 2046 ++ [0]) := by
    simp only [convSS, iconvInto, List.length_append, List.length_take, List.length_singleton]
    rw [if_neg (by omega), if_pos (by omega)]
  refine ⟨_, { b with valueSet := true, needUpdate := false, dataSize := 2046 }, by rw [setUni, hc]; rfl, ?_, rfl, rfl⟩
  show setString (cstr (text.take 2046 ++ [0])) _ = _
  rw [cstr_append_zero _ [] h0]
  simp only [setString, List.length_take]
  rw [Nat.min_eq_left (by omega)]
  rfl

/-- "aééé…", 2201 bytes of UTF-8 -/
def long : Bytes := 97 :: (List.replicate 1100 [(0xc3 : UInt8), 0xa9]).flatten

/-- The last byte of a text in UTF-8 is no lead byte of a longer character. -/
theorem rfc_last (chs : List Nat) (hne : chs ≠ []) : ∃ pre x, chs.flatMap Verif.Conv.rfcUtf8 = pre ++ [x] ∧ x < 192 := by
  have hsplit : chs = chs.dropLast ++ [chs.getLast hne] := (List.dropLast_concat_getLast hne).symm
  generalize chs.getLast hne = c at hsplit
  rw [hsplit, List.flatMap_append]
  simp only [List.flatMap_cons, List.flatMap_nil, List.append_nil]
  generalize chs.dropLast.flatMap Verif.Conv.rfcUtf8 = d
  unfold Verif.Conv.rfcUtf8
  split
  · exact ⟨_, c, rfl, by omega⟩
  · split
    · exact ⟨d ++ [192 + c / 64], 128 + c % 64, by simp, by omega⟩
    · split
      · exact ⟨d ++ [224 + c / 4096, 128 + c / 64 % 64], 128 + c % 64, by simp, by omega⟩
      · exact ⟨d ++ [240 + c / 262144, 128 + c / 4096 % 64, 128 + c / 64 % 64], 128 + c % 64,
          by simp, by omega⟩

/-- C212. Longer texts do not come back, and what is stored of a text in UTF-8 may not be UTF-8 any
more: "aééé…" ends in half an "é". -/
theorem C212_counterexample : ¬ TextComesBack ∧
    (∃ chs : List Nat, long.map UInt8.toNat = chs.flatMap Verif.Conv.rfcUtf8) ∧
    ∃ e b', setUni none long (.leaf ⟨0x7BA9, -1, 0, false, true, true⟩ none (.str none)) = some e ∧
      e = .leaf b' none (.str (some (long.take 2046))) ∧
      ¬ ∃ chs : List Nat, (long.take 2046).map UInt8.toNat = chs.flatMap Verif.Conv.rfcUtf8 := by
  have h0 : (0 : UInt8) ∉ long := by decide +kernel
  have hl : 2046 < long.length := by decide +kernel
  obtain ⟨e, b', he, hb, _⟩ := C212_cut long ⟨0x7BA9, -1, 0, false, true, true⟩ none (.str none) h0 hl
  refine ⟨fun h => ?_, ⟨97 :: List.replicate 1100 0xe9, by decide +kernel⟩, e, b', he, hb, ?_⟩
  · obtain ⟨e2, he2, b2, d2, hb2⟩ := h ⟨0x7BA9, -1, 0, false, true, true⟩ none (.str none) long h0
    rw [he] at he2
    injection he2 with he2
    rw [← he2, hb] at hb2
    injection hb2 with _ _ h3
    injection h3 with h3
    injection h3 with h3
    have : (long.take 2046).length = long.length := by rw [h3]
    rw [List.length_take] at this
    omega
  · rintro ⟨chs, hc⟩
    have hlast : ((long.take 2046).map UInt8.toNat).getLast? = some 0xc3 := by decide +kernel
    rw [hc] at hlast
    by_cases hne : chs = []
    · subst hne
      cases hlast
    · obtain ⟨pre, x, hx, hlt⟩ := rfc_last chs hne
      rw [hx, List.getLast?_append] at hlast
      simp at hlast
      omega

/-- C212. An element of the other class (plain text) is never converted, whatever the locale: its
bytes come out as they are, as many as there is room for. -/
theorem C212_plain (lower : Bytes → Bytes) (iconvOpen : Bytes → Bytes → Conv) (current buf : Bytes) (n : Nat) (hn : 1 ≤ n)
    (hb : (0 : UInt8) ∉ buf) :
    let c := converters lower iconvOpen current
    stringGet false c.fromUtf8 c.fromStr n n (some buf) = some (buf.take (n - 1) ++ [0]) := by
  simp only [converters, convOpen, if_true, stringGet, Bool.false_eq_true, if_false]
  rw [cstr_self buf hb]
  simp only [convSS, iconvInto, List.length_append, List.length_take, List.length_singleton]
  rw [if_neg (by omega), if_pos (by omega)]

example : stringGet false none none 3 3 (some [0xe9, 33, 34]) = some [0xe9, 33, 0] := by decide

/-! ### C213: wide text -/

/-- What a caller expects of the conversion of a text of wide characters: every character of a plain
ASCII text arrives. -/
def WideArrives (k : Nat) (cc : Conv) : Prop :=
  ∀ (s : List Nat) (n : Nat), (∀ u ∈ s, 1 ≤ u ∧ u < 128) → s.length + 2 ≤ n →
    ∃ out, convSK k cc n n s = some out ∧ textOf out = some (s.map UInt8.ofNat)

/-- A converter from units of `k` bytes that knows ASCII and wants complete units. -/
structure KnowsAscii (k : Nat) (f : Bytes → Option Bytes) : Prop where
  ascii : ∀ s : List Nat, (∀ u ∈ s, u < 128) → f (s.flatMap (unitBytes k)) = some (s.map UInt8.ofNat)
  complete : ∀ inp : Bytes, inp.length % k ≠ 0 → f inp = none

theorem units_length (k : Nat) (s : List Nat) : (s.flatMap (unitBytes k)).length = s.length * k := by
  induction s with
  | nil => simp
  | cons a s ih => rw [List.flatMap_cons, List.length_append, unitBytes_length, ih, List.length_cons, Nat.succ_mul]; omega

theorem units_take (k : Nat) (s : List Nat) (m : Nat) : (s.flatMap (unitBytes k)).take (m * k) = (s.take m).flatMap (unitBytes k) := by
  induction m generalizing s with
  | zero => simp
  | succ m ih =>
    cases s with
    | nil => simp
    | cons a s =>
      rw [List.flatMap_cons, List.take_succ_cons, List.flatMap_cons, Nat.succ_mul, Nat.add_comm, ← ih s]
      have hl := unitBytes_length k a
      generalize unitBytes k a = x at hl
      rw [List.take_append, List.take_of_length_le (by omega), hl, Nat.add_sub_cancel_left]

theorem textOf_ascii (s : List Nat) (r : Bytes) (h : ∀ u ∈ s, 1 ≤ u ∧ u < 128) :
    textOf (s.map UInt8.ofNat ++ 0 :: r) = some (s.map UInt8.ofNat) := by
  have h0 : (0 : UInt8) ∉ s.map UInt8.ofNat := by
    intro hm
    obtain ⟨u, hu, he⟩ := List.mem_map.mp hm
    have := h u hu
    have he2 := congrArg UInt8.toNat he
    simp only [UInt8.toNat_ofNat', UInt8.toNat_zero] at he2
    omega
  have h1 : (0 : UInt8) ∈ s.map UInt8.ofNat ++ 0 :: r := by simp
  rw [textOf, if_pos h1]
  exact congrArg some (cstr_append_zero _ r h0)

/-- C213. From a text in UTF-16 (`k = 2`) or in wide characters (`k = 4`) an ASCII text arrives
whole exactly if its length and one is no multiple of the size of a unit (the converter is not used
then, as it refuses half a unit) — otherwise only the first half or quarter of it arrives. -/
theorem C213_wide_text (k : Nat) (hk : 2 ≤ k) (f : Bytes → Option Bytes) (hf : KnowsAscii k f) (s : List Nat) (n : Nat)
    (hs : ∀ u ∈ s, 1 ≤ u ∧ u < 128) (hn : s.length + 2 ≤ n) (hne : s ≠ []) :
    ∃ out, convSK k (some f) n n s = some out ∧
      textOf out = some ((if (s.length + 1) % k = 0 then s.take ((s.length + 1) / k) else s).map UInt8.ofNat) := by
  have hlen : 0 < s.length := List.length_pos_iff.mpr hne
  by_cases hm : (s.length + 1) % k = 0
  · obtain ⟨m, hmk⟩ := Nat.dvd_of_mod_eq_zero hm
    have hmk' : s.length + 1 = m * k := by rw [hmk, Nat.mul_comm]
    have hdiv : (s.length + 1) / k = m := by rw [hmk', Nat.mul_div_cancel _ (by omega)]
    have hm1 : m ≤ s.length := by
      cases m with
      | zero => omega
      | succ m =>
        have : (m + 1) * 2 ≤ (m + 1) * k := Nat.mul_le_mul_left _ hk
        omega
    have hin : ((s ++ [0]).flatMap (unitBytes k)).take (s.length + 1) = (s.take m).flatMap (unitBytes k) := by
      rw [hmk', units_take, List.take_append_of_le_length hm1]
    have hconv := hf.ascii (s.take m) (fun u hu => (hs u (List.mem_of_mem_take hu)).2)
    refine ⟨(s.take m).map UInt8.ofNat ++ [0], ?_, ?_⟩
    · have hl1 : (List.map UInt8.ofNat (s.take m)).length ≤ n := by
        rw [List.length_map, List.length_take]; omega
      have hl2 : (List.map UInt8.ofNat (s.take m) ++ [0]).length ≤ n := by
        rw [List.length_append, List.length_map, List.length_take, List.length_singleton]; omega
      simp only [convSK, iconvInto, hin, hconv, if_pos hl1, if_pos hl2]
      rw [if_neg (by omega)]
    · rw [if_pos hm, hdiv]
      exact textOf_ascii _ [] fun u hu => hs u (List.mem_of_mem_take hu)
  · have hin : (((s ++ [0]).flatMap (unitBytes k)).take (s.length + 1)).length % k ≠ 0 := by
      rw [List.length_take, units_length, List.length_append, List.length_singleton]
      have : s.length + 1 ≤ (s.length + 1) * k := Nat.le_mul_of_pos_right _ (by omega)
      rw [Nat.min_eq_left this]
      exact hm
    have hconv := hf.complete _ hin
    have hmap : (s.take (n - 1)).map (fun u => if u > 255 then (42 : UInt8) else UInt8.ofNat u) = s.map UInt8.ofNat := by
      rw [List.take_of_length_le (by omega)]
      apply List.map_congr_left
      intro u hu
      have := hs u hu
      rw [if_neg (by omega)]
    refine ⟨s.map UInt8.ofNat ++ [0], ?_, ?_⟩
    · have hl2 : (List.map UInt8.ofNat s ++ [0]).length ≤ n := by
        rw [List.length_append, List.length_map, List.length_singleton]; omega
      simp only [convSK, iconvInto, hconv, hmap, if_pos hl2]
      rw [if_neg (by omega)]
    · rw [if_neg hm]
      exact textOf_ascii _ [] hs

/-- A converter from UTF-16 that only knows ASCII. -/
def utf16Ascii : Bytes → Option Bytes
  | [] => some []
  | [_] => none
  | a :: b :: rest => if a < 128 ∧ b = 0 then (utf16Ascii rest).map (a :: ·) else none

theorem utf16Ascii_knows : KnowsAscii 2 utf16Ascii where
  ascii := by
    intro s h
    induction s with
    | nil => rfl
    | cons u s ih =>
      have hu := h u (List.mem_cons_self ..)
      have h1 : UInt8.ofNat (u % 256) < 128 := by
        rw [UInt8.lt_iff_toNat_lt, UInt8.toNat_ofNat']
        show u % 256 % 256 < 128
        omega
      have h2 : UInt8.ofNat (u / 256 % 256) = 0 := by
        rw [show u / 256 % 256 = 0 by omega]
        rfl
      have h3 : u % 256 = u := by omega
      rw [List.flatMap_cons]
      show utf16Ascii (UInt8.ofNat (u % 256) :: UInt8.ofNat (u / 256 % 256) :: s.flatMap (unitBytes 2)) = _
      rw [utf16Ascii, if_pos ⟨h1, h2⟩, ih fun x hx => h x (List.mem_cons_of_mem _ hx), h3]
      rfl
  complete := by
    intro inp
    induction inp using utf16Ascii.induct with
    | case1 => intro h; simp at h
    | case2 => intro _; rfl
    | case3 a b rest h ih =>
      intro hodd
      rw [utf16Ascii, if_pos h, ih (by simp only [List.length_cons] at hodd; omega)]
      rfl
    | case4 a b rest h =>
      intro _
      rw [utf16Ascii, if_neg h]

/-- C213. So ASCII texts do not arrive: of "abc" only "ab" does. -/
theorem C213_counterexample : ¬ WideArrives 2 (some utf16Ascii) ∧
    convSK 2 (some utf16Ascii) 9 9 [97, 98, 99] = some [97, 98, 0] := by
  have h9 : convSK 2 (some utf16Ascii) 9 9 [97, 98, 99] = some [97, 98, 0] := by decide +kernel
  refine ⟨fun h => ?_, h9⟩
  obtain ⟨out, ho, ht⟩ := h [97, 98, 99] 9 (by decide) (by decide)
  rw [h9] at ho
  injection ho with ho
  subst ho
  revert ht
  decide

/-- Four characters arrive, as the converter refuses the five bytes it is given. -/
example : convSK 2 (some utf16Ascii) 9 9 [97, 98, 99, 100] = some [97, 98, 99, 100, 0] := by decide +kernel

end Verif.Ebml.Text
