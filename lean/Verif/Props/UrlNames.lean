import Verif.Props.Url
/-!
Property theorems C154 and C155: the names of the files mkclean and mkparts write.
-/
set_option linter.unusedSimpArgs false
namespace Verif.Url
open Verif Verif.Mkv

/-- The buffers are long enough for the path and `clean.`, `/` and the terminator. -/
def Room (c : Caps) (u : Str) : Prop :=
  6 ≤ c.path ∧ u.length + 10 < c.line ∧ u.length + 10 < c.data ∧ u.length + 10 < c.full ∧ c.full < 2 ^ 64

/-- Characters are bytes. -/
def IsBytes (u : Str) : Prop := ∀ x ∈ u, x < 256

theorem copy_all (cap : Nat) (s : Str) (h : s.length < cap) : copy cap s = s := List.take_of_length_le (by omega)

theorem fits_all (n : Nat) (ps : List Printf.Piece) (h : ∀ p ∈ ps, ¬ p.RightAligned) : Printf.Fits n ps := by
  intro pre p post e hr
  exact absurd hr (h p (by rw [e]; simp))

theorem text_clean2 (full : Nat) (old name ext : Str) (hfull : full < 2 ^ 64) (ho : old.length + name.length + ext.length + 8 < full)
    (hn : IsBytes name) (he : IsBytes ext) :
    printed (Printf.catprintf full old (lit "clean.%s.%s") [.str (some name), .str (some ext)]) =
      .ok (old ++ lit "clean." ++ name ++ lit "." ++ ext) := by
  have := Printf.C94_append full hfull old (by omega)
    [.lit 0x63, .lit 0x6C, .lit 0x65, .lit 0x61, .lit 0x6E, .lit 0x2E, .dir {} (.str name), .lit 0x2E, .dir {} (.str ext)]
    (by
      intro p hp
      simp only [List.mem_cons, List.not_mem_nil, or_false] at hp
      rcases hp with rfl | rfl | rfl | rfl | rfl | rfl | rfl | rfl | rfl <;> simp [Printf.Piece.WF]
      · exact hn
      · exact he)
    (by
      intro p hp
      simp only [List.mem_cons, List.not_mem_nil, or_false] at hp
      rcases hp with rfl | rfl | rfl | rfl | rfl | rfl | rfl | rfl | rfl <;> simp [Printf.Piece.InRange])
    (fits_all _ _ (by
      intro p hp
      simp only [List.mem_cons, List.not_mem_nil, or_false] at hp
      rcases hp with rfl | rfl | rfl | rfl | rfl | rfl | rfl | rfl | rfl <;> simp [Printf.Piece.RightAligned, Printf.Spec.width]))
  have hm : lit "clean.%s.%s" = Printf.mask [.lit 0x63, .lit 0x6C, .lit 0x65, .lit 0x61, .lit 0x6E, .lit 0x2E, .dir {} (.str name), .lit 0x2E, .dir {} (.str ext)] := rfl
  have ha : [.str (some name), .str (some ext)] = Printf.args [.lit 0x63, .lit 0x6C, .lit 0x65, .lit 0x61, .lit 0x6E, .lit 0x2E, .dir {} (.str name), .lit 0x2E, .dir {} (.str ext)] := rfl
  rw [hm, ha, this]
  have ht : Printf.text [.lit 0x63, .lit 0x6C, .lit 0x65, .lit 0x61, .lit 0x6E, .lit 0x2E, .dir {} (.str name), .lit 0x2E, .dir {} (.str ext)]
      = lit "clean." ++ name ++ lit "." ++ ext := by
    simp [Printf.text, Printf.Piece.text, Printf.Conv.text, Printf.field, Printf.Spec.width, lit]
  have h6 : (lit "clean.").length = 6 := rfl
  have h1 : (lit ".").length = 1 := rfl
  rw [ht, List.take_of_length_le (by simp only [List.length_append, h6, h1]; omega)]
  simp [printed]

theorem text_clean1 (full : Nat) (old name : Str) (hfull : full < 2 ^ 64) (ho : old.length + name.length + 7 < full)
    (hn : IsBytes name) :
    printed (Printf.catprintf full old (lit "clean.%s") [.str (some name)]) = .ok (old ++ lit "clean." ++ name) := by
  have := Printf.C94_append full hfull old (by omega)
    [.lit 0x63, .lit 0x6C, .lit 0x65, .lit 0x61, .lit 0x6E, .lit 0x2E, .dir {} (.str name)]
    (by
      intro p hp
      simp only [List.mem_cons, List.not_mem_nil, or_false] at hp
      rcases hp with rfl | rfl | rfl | rfl | rfl | rfl | rfl <;> simp [Printf.Piece.WF]
      · exact hn)
    (by
      intro p hp
      simp only [List.mem_cons, List.not_mem_nil, or_false] at hp
      rcases hp with rfl | rfl | rfl | rfl | rfl | rfl | rfl <;> simp [Printf.Piece.InRange])
    (fits_all _ _ (by
      intro p hp
      simp only [List.mem_cons, List.not_mem_nil, or_false] at hp
      rcases hp with rfl | rfl | rfl | rfl | rfl | rfl | rfl <;> simp [Printf.Piece.RightAligned, Printf.Spec.width]))
  have hm : lit "clean.%s" = Printf.mask [.lit 0x63, .lit 0x6C, .lit 0x65, .lit 0x61, .lit 0x6E, .lit 0x2E, .dir {} (.str name)] := rfl
  have ha : [.str (some name)] = Printf.args [.lit 0x63, .lit 0x6C, .lit 0x65, .lit 0x61, .lit 0x6E, .lit 0x2E, .dir {} (.str name)] := rfl
  rw [hm, ha, this]
  have ht : Printf.text [.lit 0x63, .lit 0x6C, .lit 0x65, .lit 0x61, .lit 0x6E, .lit 0x2E, .dir {} (.str name)]
      = lit "clean." ++ name := by
    simp [Printf.text, Printf.Piece.text, Printf.Conv.text, Printf.field, Printf.Spec.width, lit]
  have h6 : (lit "clean.").length = 6 := rfl
  rw [ht, List.take_of_length_le (by simp only [List.length_append, h6]; omega)]
  simp [printed]

/-- The directory with its delimiter. -/
def slashed (dir : Str) : Str := if dir = [] then [] else if dir.getLast? = some 0x2F then dir else dir ++ lit "/"

theorem outDir_eq (c : Caps) (dir : Str) (h1 : dir.length < c.line) (h2 : dir.length + 1 < c.full) : outDir c dir = slashed dir := by
  unfold outDir slashed
  rw [copy_all c.line dir h1, copy_all c.full dir (by omega)]
  by_cases hd : dir = []
  · rw [if_pos hd, if_pos hd]
  · rw [if_neg hd, if_neg hd]
    unfold addDelim
    by_cases hl : dir.getLast? = some 0x2F
    · rw [if_pos hl, if_pos hl]
    · rw [if_neg hl, if_neg hl]
      unfold cat
      rw [if_pos (by omega), copy_all _ _ (by simp; omega)]
      rfl

theorem slashed_length (dir : Str) : dir.length ≤ (slashed dir).length ∧ (slashed dir).length ≤ dir.length + 1 := by
  unfold slashed
  by_cases hd : dir = []
  · rw [if_pos hd, hd]; simp
  · rw [if_neg hd]
    by_cases hl : dir.getLast? = some 0x2F
    · rw [if_pos hl]; omega
    · rw [if_neg hl]; simp [lit]

theorem parts_length {u dir name ext : Str} (h : Parts u dir name ext) :
    dir.length + name.length + ext.length ≤ u.length ∧ u.length ≤ dir.length + name.length + ext.length + 2 := by
  have hw : name.length + ext.length ≤ (withExt name ext).length ∧ (withExt name ext).length ≤ name.length + ext.length + 1 := by
    unfold withExt
    by_cases h1 : ext = []
    · rw [if_pos h1, h1]; simp
    · rw [if_neg h1]
      by_cases h2 : ext = lit "."
      · rw [if_pos h2, h2]; simp [lit]
      · rw [if_neg h2]; simp [lit]; omega
  rcases h.whole with ⟨sep, _, e⟩ | ⟨e, _⟩ <;> rw [e] <;> simp only [List.length_append, List.length_singleton] <;> omega

theorem parts_bytes {u dir name ext : Str} (h : Parts u dir name ext) (hb : IsBytes u) : IsBytes name ∧ IsBytes ext := by
  have hw : ∀ x, x ∈ name ∨ x ∈ ext → x ∈ withExt name ext := by
    intro x hx
    unfold withExt
    by_cases h1 : ext = []
    · rw [if_pos h1]; rw [h1] at hx; simpa using hx
    · rw [if_neg h1]
      by_cases h2 : ext = lit "."
      · rw [if_pos h2]; rw [h2] at hx; simpa using hx
      · rw [if_neg h2]; simp only [List.mem_append]; grind
  have hu : ∀ x ∈ withExt name ext, x ∈ u := by
    intro x hx
    rcases h.whole with ⟨sep, _, e⟩ | ⟨e, _⟩ <;> rw [e] <;> simp [hx]
  exact ⟨fun x hx => hb x (hu x (hw x (.inl hx))), fun x hx => hb x (hu x (hw x (.inr hx)))⟩

/-- C154. Without a name for the output, mkclean writes to a file in the directory of the input (as `SplitPath` sees
it), with `clean.` in front of the name: never to the input itself. If the buffers have room for the path. -/
theorem C154_clean_name_partial (c : Caps) (u : Str) (hr : Room c u) (hb : IsBytes u) (h : ¬ HttpFragment u) :
    ∃ dir name ext, Parts u dir name ext ∧
      cleanName c u = .ok (slashed dir ++ lit "clean." ++ name ++ (if ext = [] then [] else lit "." ++ ext)) ∧
      ∀ out, cleanName c u = .ok out → out ≠ u := by
  obtain ⟨r1, r2, r3, r4, r5⟩ := hr
  obtain ⟨dir, name, ext, e, hp⟩ := C153_split_joins_partial c.path r1 u h
  obtain ⟨l1, l2⟩ := parts_length hp
  obtain ⟨b1, b2⟩ := parts_bytes hp hb
  obtain ⟨s1, s2⟩ := slashed_length dir
  have he : cleanName c u = .ok (slashed dir ++ lit "clean." ++ name ++ (if ext = [] then [] else lit "." ++ ext)) := by
    simp only [cleanName, e, Out.bind]
    rw [copy_all c.line name (by omega), copy_all c.data ext (by omega), outDir_eq c dir (by omega) (by omega)]
    by_cases hx : ext = []
    · rw [if_neg (by simp [hx]), if_pos hx, text_clean1 c.full _ name r5 (by omega) b1]
      simp
    · rw [if_pos hx, if_neg hx, text_clean2 c.full _ name ext r5 (by omega) b1 b2]
      simp
  refine ⟨dir, name, ext, hp, he, ?_⟩
  intro out ho hu
  rw [he] at ho
  cases ho
  have := congrArg List.length hu
  have h6 : (lit "clean.").length = 6 := rfl
  simp only [List.length_append, h6] at this
  have : (slashed dir).length + 6 + name.length + ext.length ≤ u.length := by
    by_cases hx : ext = []
    · rw [if_pos hx] at this; simp only [hx, List.length_nil] at this ⊢; omega
    · rw [if_neg hx] at this
      simp only [List.length_append] at this
      omega
  omega

/-- C154, the usual case: `dir/file` becomes `dir/clean.file`. -/
theorem C154_same_directory (c : Caps) (d f : Str) (hr : Room c (d ++ lit "/" ++ f)) (hb : IsBytes (d ++ lit "/" ++ f))
    (hd : d ≠ [] ∧ d.getLast? ≠ some 0x2F) (hc : 0x3A ∉ d ++ f) (hf : ∀ x ∈ f, x ≠ 0x2F ∧ x ≠ 0x5C) (hdot : f.getLast? ≠ some 0x2E) :
    cleanName c (d ++ lit "/" ++ f) = .ok (d ++ lit "/clean." ++ f) := by
  have hs : scheme (d ++ lit "/" ++ f) = none := scheme_none _ (by
    simp only [List.mem_append, not_or] at hc ⊢
    exact ⟨⟨hc.1, by decide⟩, hc.2⟩)
  obtain ⟨r1, r2, r3, r4, r5⟩ := hr
  have hl : (d ++ lit "/" ++ f).length = d.length + 1 + f.length := by simp [lit]; omega
  rw [hl] at r2 r3 r4
  have hdir : splitDir (d ++ lit "/" ++ f) = (d, f) := by
    have e : d ++ lit "/" ++ f = d ++ 0x2F :: f := by simp [lit]
    simp only [splitDir, (protoEnd_zero _).2 hs, List.drop_zero, Nat.zero_add]
    rw [e, lastIdx_at delim d 0x2F f rfl (fun x hx => (delim_false x).2 (hf x hx))]
    simp
  have hcut : cutFragment c.path (d ++ lit "/" ++ f) f = .ok f := by
    unfold cutFragment protoName
    rw [hs, if_neg]
    intro h
    rw [Bool.and_eq_true] at h
    have := copy_ieq c.path _ (lit "http") (by simp [lit]; omega) h.1
    revert this; decide
  obtain ⟨n1, _, _, n4⟩ := splitName_spec f
  have hsl : slashed d = d ++ lit "/" := by unfold slashed; rw [if_neg hd.1, if_neg hd.2]
  have bb : ∀ x ∈ (splitName f).1 ++ (splitName f).2, x < 256 := fun x hx => hb x (by simp [n4 x hx])
  have nl : (splitName f).1.length + (splitName f).2.length ≤ f.length := by
    have hw := congrArg List.length n1
    rw [← hw]
    unfold withExt
    split
    · rename_i h; simp [h]
    · split
      · rename_i h; simp [h]
      · simp only [List.length_append]; omega
  simp only [cleanName, splitPath, hdir, hcut, Out.bind]
  rw [copy_all c.line _ (by omega), copy_all c.data _ (by omega), outDir_eq c d (by omega) (by omega), hsl]
  have h1 : (lit "/").length = 1 := rfl
  have b1 : IsBytes (splitName f).1 := fun x hx => bb x (by simp [hx])
  have b2 : IsBytes (splitName f).2 := fun x hx => bb x (by simp [hx])
  by_cases hx : (splitName f).2 = []
  · rw [if_neg (by simp [hx]), text_clean1 c.full _ _ r5 (by simp only [List.length_append, h1]; omega) b1]
    rw [withExt, if_pos hx] at n1
    rw [n1]
    simp [lit]
  · rw [if_pos hx, text_clean2 c.full _ _ _ r5 (by simp only [List.length_append, h1]; omega) b1 b2]
    rw [withExt, if_neg hx] at n1
    by_cases h2 : (splitName f).2 = lit "."
    · rw [if_pos h2] at n1
      refine absurd ?_ hdot
      rw [← n1]; simp [lit]
    · rw [if_neg h2] at n1
      conv => rhs; rw [← n1]
      simp [lit]

/-- The usual sizes on Linux. -/
def usual : Caps := ⟨4096, 1024, 4096, 4096⟩

example : cleanName usual (lit "/data/my.movie.mkv") = .ok (lit "/data/clean.my.movie.mkv") ∧ cleanName usual (lit "movie") = .ok (lit "clean.movie") ∧
    Room usual (lit "/data/my.movie.mkv") ∧ IsBytes (lit "/data/my.movie.mkv") := by
  refine ⟨by decide +kernel, by decide +kernel, ?_, ?_⟩
  · refine ⟨by decide, ?_, ?_, ?_, by decide⟩ <;> decide +kernel
  · intro x hx
    revert x
    decide +kernel

/-- C154 as hoped for: the output lies beside the input, called `clean.` and the name of the input, and is another file. -/
def CleanBeside : Prop :=
  ∀ d f : Str, (∀ x ∈ f, x ≠ 0x2F) → f ≠ [] → cleanName usual (d ++ lit "/" ++ f) = .ok (d ++ lit "/clean." ++ f)

/-- C154 fails in the root directory: the output for `/movie.mkv` goes to the current directory. -/
theorem C154_root_counterexample : ¬ CleanBeside ∧ cleanName usual (lit "/movie.mkv") = .ok (lit "clean.movie.mkv") := by
  have h1 : cleanName usual (lit "/movie.mkv") = .ok (lit "clean.movie.mkv") := by decide +kernel
  refine ⟨fun h => ?_, h1⟩
  have h2 := h [] (lit "movie.mkv") (by decide +kernel) (by decide)
  have : cleanName usual ([] ++ lit "/" ++ lit "movie.mkv") = cleanName usual (lit "/movie.mkv") := rfl
  rw [this, h1] at h2
  revert h2; decide +kernel

/-- C154 fails for names with a backslash, which is an ordinary character on Linux: the output is to lie in a directory that need not
exist. -/
theorem C154_backslash_counterexample : cleanName usual (lit "/d/a\\b.mkv") = .ok (lit "/d/a/clean.b.mkv") := by decide +kernel

/-- C154 fails for long names: the name is cut to 1023 characters, and if it repeats `clean.` the output is the input,
which is then overwritten while it is read. -/
theorem C154_overwrite_counterexample :
    cleanName usual ((List.replicate 171 (lit "clean.")).flatten ++ lit "cle.mkv") = .ok ((List.replicate 171 (lit "clean.")).flatten ++ lit "cle.mkv") := by
  decide +kernel

/-! ### C155 -/

theorem loop_z (cap : Nat) (hc : 1 ≤ cap) (hcap : cap < 2 ^ 64) (g : Nat) (T rest : Str) (as : List Printf.Arg) (h : T.length + 2 < cap - 1) :
    Printf.loop (g + 3) (lit "%zu." ++ rest) as (Printf.st cap T) = Printf.loop g rest as (Printf.st cap (T ++ lit "u.")) := by
  have hl : lit "%zu." ++ rest = 0x25 :: 0x7A :: 0x75 :: 0x2E :: rest := rfl
  rw [hl]
  have hd : Printf.directive (0x7A :: 0x75 :: 0x2E :: rest) as (Printf.st cap T) = .inr (0x75 :: 0x2E :: rest, as, Printf.st cap T) := rfl
  rw [Printf.loop, if_pos ((Printf.st_left cap T hc).2 (by omega))]
  simp only [if_true]
  rw [if_neg (by simp), hd]
  simp only
  rw [Printf.loop, if_pos ((Printf.st_left cap T hc).2 (by omega))]
  rw [if_neg (by decide), Printf.put_st cap T 0x75 hcap (by omega)]
  simp only
  rw [Printf.loop, if_pos ((Printf.st_left cap _ hc).2 (by simp; omega))]
  rw [if_neg (by decide), Printf.put_st cap _ 0x2E hcap (by simp; omega)]
  simp [lit]

theorem loop_s_null (cap : Nat) (hc : 1 ≤ cap) (g : Nat) (T : Str) (as : List Printf.Arg) (h : T.length < cap - 1) :
    Printf.loop (g + 2) (lit "%s") (.str none :: as) (Printf.st cap T) = .done (T ++ [0]) := by
  have hl : lit "%s" = [0x25, 0x73] := rfl
  rw [hl, Printf.loop, if_pos ((Printf.st_left cap T hc).2 h)]
  have hd : Printf.directive [0x73] (.str none :: as) (Printf.st cap T) = .inr ([], as, Printf.st cap T) := rfl
  simp only [if_true]
  rw [if_neg (by simp), hd]
  simp only
  rw [Printf.loop_nil, Printf.finish_st cap hc, List.take_of_length_le (by omega)]

theorem loop_s_wild (cap : Nat) (hc : 1 ≤ cap) (g : Nat) (T : Str) (j : Int) (as : List Printf.Arg) (h : T.length < cap - 1) :
    Printf.loop (g + 1) (lit "%s") (.long j :: as) (Printf.st cap T) = .badArg := by
  have hl : lit "%s" = [0x25, 0x73] := rfl
  rw [hl, Printf.loop, if_pos ((Printf.st_left cap T hc).2 h)]
  have hd : Printf.directive [0x73] (.long j :: as) (Printf.st cap T) = .inl .badArg := rfl
  simp only [if_true]
  rw [if_neg (by simp), hd]

theorem loop_name (cap : Nat) (hc : 1 ≤ cap) (hcap : cap < 2 ^ 64) (g : Nat) (T name rest : Str) (as : List Printf.Arg) (hb : IsBytes name)
    (h : T.length + name.length + 1 < cap - 1) :
    Printf.loop (g + 2) (lit "%s." ++ rest) (.str (some name) :: as) (Printf.st cap T) = Printf.loop g rest as (Printf.st cap (T ++ name ++ lit ".")) := by
  have hl : lit "%s." ++ rest = 0x25 :: 0x73 :: 0x2E :: rest := rfl
  rw [hl, Printf.loop, if_pos ((Printf.st_left cap T hc).2 (by omega))]
  simp only [if_true]
  rw [if_neg (by simp)]
  have hd : Printf.directive (0x73 :: 0x2E :: rest) (.str (some name) :: as) (Printf.st cap T) = .inr (0x2E :: rest, as, Printf.st cap (T ++ name)) := by
    have h1 : Printf.directive (0x73 :: 0x2E :: rest) (.str (some name) :: as) (Printf.st cap T) =
        match Printf.lift as (Printf.strConv false (-1) name (Printf.st cap T)) with
        | .inl o => .inl o
        | .inr (s', args') => .inr (0x2E :: rest, args', s') := rfl
    have h2 := Printf.strConv_none cap hc hcap {} name T hb (by omega) rfl (.inl rfl)
    have h3 : Printf.field false (Printf.Spec.width {}) name = name := by
      simp [Printf.field, Printf.Spec.width]
    rw [h3] at h2
    have h4 : (({} : Printf.Spec).wInt) = -1 := rfl
    rw [h4] at h2
    have h5 : Printf.strConv false (-1) name (Printf.st cap T) = some (Printf.st cap (T ++ name)) := h2
    rw [h1, h5]
    rfl
  rw [hd]
  simp only
  rw [Printf.loop, if_pos ((Printf.st_left cap _ hc).2 (by simp; omega))]
  rw [if_neg (by decide), Printf.put_st cap _ 0x2E hcap (by simp; omega)]
  rfl

/-- What the formats of mkparts print. -/
theorem part_texts (full : Nat) (old name : Str) (j : Nat) (hfull : full < 2 ^ 64) (hn : IsBytes name) (ho : old.length + name.length + 5 < full) (x : Printf.Arg) :
    printed (Printf.catprintf full old (lit "%s.%zu.%s") [.str (some name), sizeArg j, x]) = (if j = 0 then .ok (old ++ name ++ lit ".u.") else .bad) ∧
    printed (Printf.catprintf full old (lit "%zu.%s") [sizeArg j, x]) = (if j = 0 then .ok (old ++ lit "u.") else .bad) := by
  constructor
  · have e : Printf.printf (full - old.length) (lit "%s.%zu.%s") [.str (some name), sizeArg j, x] =
        if j = 0 then .done (name ++ lit ".u." ++ [0]) else .badArg := by
      unfold Printf.printf
      have h0 := Printf.st_nil (full - old.length)
      rw [← h0]
      have l1 : (lit "%s.%zu.%s").length + 1 = (8 + 0) + 2 := rfl
      have l2 : lit "%s.%zu.%s" = lit "%s." ++ (lit "%zu." ++ lit "%s") := rfl
      rw [l1, l2, loop_name _ (by omega) (by omega) _ [] name _ _ hn (by simp; omega), loop_z _ (by omega) (by omega) 5 _ _ _ (by simp [lit]; omega)]
      by_cases hj : j = 0
      · rw [if_pos hj]
        simp only [sizeArg, hj, if_true]
        rw [loop_s_null _ (by omega) 3 _ _ (by simp [lit]; omega)]
        simp [lit]
      · rw [if_neg hj]
        simp only [sizeArg, hj, if_false]
        exact loop_s_wild _ (by omega) 4 _ _ _ (by simp [lit]; omega)
    unfold Printf.catprintf
    rw [if_pos (by omega), e]
    by_cases hj : j = 0
    · rw [if_pos hj, if_pos hj]; simp [Printf.behind, printed, List.append_assoc, ← List.append_assoc]
    · rw [if_neg hj, if_neg hj]; rfl
  · have e : Printf.printf (full - old.length) (lit "%zu.%s") [sizeArg j, x] =
        if j = 0 then .done (lit "u." ++ [0]) else .badArg := by
      unfold Printf.printf
      have h0 := Printf.st_nil (full - old.length)
      rw [← h0]
      have l1 : (lit "%zu.%s").length + 1 = 4 + 3 := rfl
      have l2 : lit "%zu.%s" = (lit "%zu." ++ lit "%s") := rfl
      rw [l1, l2, loop_z _ (by omega) (by omega) 4 _ _ _ (by simp; omega)]
      by_cases hj : j = 0
      · rw [if_pos hj]
        simp only [sizeArg, hj, if_true]
        rw [loop_s_null _ (by omega) 2 _ _ (by simp [lit]; omega)]
        simp [lit]
      · rw [if_neg hj]
        simp only [sizeArg, hj, if_false]
        exact loop_s_wild _ (by omega) 3 _ _ _ (by simp [lit]; omega)
    unfold Printf.catprintf
    rw [if_pos (by omega), e]
    by_cases hj : j = 0
    · rw [if_pos hj, if_pos hj]; simp [Printf.behind, printed, List.append_assoc, ← List.append_assoc]
    · rw [if_neg hj, if_neg hj]; rfl

/-- C155 as hoped for: every segment gets a file of its own, which is not the input. -/
def PartsNamed : Prop :=
  ∀ (c : Caps) (u : Str), Room c u → IsBytes u → ¬ HttpFragment u →
    (∀ j, ∃ out, partName c u j = .ok out ∧ out ≠ u) ∧ ∀ i j out, partName c u i = .ok out → partName c u j = .ok out → i = j

/-- C155 fails for every input: `%zu` is not known to `stcatprintf_s`, which skips the `z` and takes the number for the string
of the next `%s`. The name of the first segment ends in `u.`; for every other segment the string is read from a wild address. -/
theorem C155_parts_counterexample (c : Caps) (u : Str) (hr : Room c u) (hb : IsBytes u) (h : ¬ HttpFragment u) :
    (∃ dir name ext, Parts u dir name ext ∧ partName c u 0 = .ok (slashed dir ++ (if ext = [] then lit "u." else name ++ lit ".u."))) ∧
    ∀ j, 0 < j → partName c u j = .bad := by
  obtain ⟨r1, r2, r3, r4, r5⟩ := hr
  obtain ⟨dir, name, ext, e, hp⟩ := C153_split_joins_partial c.path r1 u h
  obtain ⟨l1, l2⟩ := parts_length hp
  obtain ⟨b1, b2⟩ := parts_bytes hp hb
  obtain ⟨s1, s2⟩ := slashed_length dir
  have hn : ∀ j, partName c u j = if ext = [] then (if j = 0 then .ok (slashed dir ++ lit "u.") else .bad)
      else (if j = 0 then .ok (slashed dir ++ name ++ lit ".u.") else .bad) := by
    intro j
    simp only [partName, e, Out.bind]
    rw [copy_all c.line name (by omega), copy_all c.data ext (by omega), outDir_eq c dir (by omega) (by omega)]
    by_cases hx : ext = []
    · rw [if_neg (by simp [hx]), if_pos hx]
      exact (part_texts c.full (slashed dir) name j r5 b1 (by omega) _).2
    · rw [if_pos hx, if_neg hx]
      exact (part_texts c.full (slashed dir) name j r5 b1 (by omega) _).1
  refine ⟨⟨dir, name, ext, hp, ?_⟩, ?_⟩
  · rw [hn 0]
    by_cases hx : ext = []
    · simp [hx]
    · simp [hx]
  · intro j hj
    rw [hn j, if_neg (by omega : ¬ j = 0), if_neg (by omega : ¬ j = 0)]
    split <;> rfl

theorem C155_parts_named_counterexample : ¬ PartsNamed := by
  intro h
  have hr : Room usual (lit "a.mkv") := by refine ⟨by decide, ?_, ?_, ?_, by decide⟩ <;> decide +kernel
  have hb : IsBytes (lit "a.mkv") := by
    intro x hx
    revert x
    decide +kernel
  have hf : ¬ HttpFragment (lit "a.mkv") := by
    rintro ⟨h, _⟩
    revert h; decide +kernel
  obtain ⟨out, ho, _⟩ := (h usual (lit "a.mkv") hr hb hf).1 1
  rw [(C155_parts_counterexample usual (lit "a.mkv") hr hb hf).2 1 (by decide)] at ho
  cases ho

/-- C155, what is left of it: the one file that gets a name is not the input. -/
theorem C155_first_part_partial (c : Caps) (u : Str) (hr : Room c u) (hb : IsBytes u) (h : ¬ HttpFragment u) :
    ∀ j out, partName c u j = .ok out → j = 0 ∧ out ≠ u := by
  obtain ⟨⟨dir, name, ext, hp, e⟩, hj⟩ := C155_parts_counterexample c u hr hb h
  intro j out ho
  have hj0 : j = 0 := by
    rcases Nat.eq_zero_or_pos j with h | h
    · exact h
    · rw [hj j h] at ho; cases ho
  subst hj0
  refine ⟨rfl, ?_⟩
  rw [e] at ho
  cases ho
  intro hu
  have fileOf : ∀ (d f d' f' : Str), (∀ c ∈ f, c ≠ 0x2F ∧ c ≠ 0x5C) → (∀ c ∈ f', c ≠ 0x2F ∧ c ≠ 0x5C) →
      (d = [] ∨ ∃ x, d.getLast? = some x ∧ (x = 0x2F ∨ x = 0x5C)) → (d' = [] ∨ ∃ x, d'.getLast? = some x ∧ (x = 0x2F ∨ x = 0x5C)) → d ++ f = d' ++ f' → f = f' := by
    intro d f d' f' hf hf' hd hd' he
    have tail : ∀ (d f : Str), (∀ c ∈ f, c ≠ 0x2F ∧ c ≠ 0x5C) → (d = [] ∨ ∃ x, d.getLast? = some x ∧ (x = 0x2F ∨ x = 0x5C)) →
        (d ++ f).reverse.takeWhile (fun c => !delim c) = f.reverse := by
      intro d f hf hd
      rw [List.reverse_append, List.takeWhile_append_of_pos (by
        intro c hc
        have := hf c (List.mem_reverse.1 hc)
        simp [(delim_false c).2 this])]
      rcases hd with rfl | ⟨x, hx, hx'⟩
      · simp
      · have : d.reverse.head? = some x := by rw [List.head?_reverse]; exact hx
        cases hr : d.reverse with
        | nil => simp
        | cons y ys =>
          rw [hr] at this
          simp only [List.head?_cons, Option.some.injEq] at this
          subst this
          rw [List.takeWhile_cons, (delim_true y).2 hx']
          simp
    have h1 := tail d f hf hd
    have h2 := tail d' f' hf' hd'
    rw [he, h2] at h1
    exact (List.reverse_inj.1 h1).symm
  have hsl : slashed dir = [] ∨ ∃ x, (slashed dir).getLast? = some x ∧ (x = 0x2F ∨ x = 0x5C) := by
    unfold slashed
    by_cases h1 : dir = []
    · exact .inl (if_pos h1)
    · rw [if_neg h1]
      by_cases h2 : dir.getLast? = some 0x2F
      · rw [if_pos h2]; exact .inr ⟨_, h2, .inl rfl⟩
      · rw [if_neg h2]; exact .inr ⟨0x2F, by simp [lit], .inl rfl⟩
  have hplain := hp.plain
  have hup : ∀ c ∈ lit "u.", c ≠ 0x2F ∧ c ≠ 0x5C := by decide
  have hup2 : ∀ c ∈ name ++ lit ".u.", c ≠ 0x2F ∧ c ≠ 0x5C := by
    intro c hc
    rcases List.mem_append.1 hc with hc | hc
    · exact hplain c (by simp [hc])
    · exact (by decide : ∀ c ∈ lit ".u.", c ≠ 0x2F ∧ c ≠ 0x5C) c hc
  have hwp : ∀ c ∈ withExt name ext, c ≠ 0x2F ∧ c ≠ 0x5C := by
    intro c hc
    unfold withExt at hc
    split at hc
    · exact hplain c (by simp [hc])
    · split at hc
      · rcases List.mem_append.1 hc with hc | hc
        · exact hplain c (by simp [hc])
        · exact (by decide : ∀ c ∈ lit ".", c ≠ 0x2F ∧ c ≠ 0x5C) c hc
      · rcases List.mem_append.1 hc with hc | hc
        · rcases List.mem_append.1 hc with hc | hc
          · exact hplain c (by simp [hc])
          · exact (by decide : ∀ c ∈ lit ".", c ≠ 0x2F ∧ c ≠ 0x5C) c hc
        · exact hplain c (by simp [hc])
  -- the names differ
  have main : ∀ d' : Str, (d' = [] ∨ ∃ x, d'.getLast? = some x ∧ (x = 0x2F ∨ x = 0x5C)) → u = d' ++ withExt name ext → False := by
    intro d' hd' he
    rw [he] at hu
    by_cases hx : ext = []
    · rw [if_pos hx] at hu
      have := fileOf _ _ _ _ hup hwp hsl hd' hu
      rw [withExt, if_pos hx] at this
      exact hp.noDot hx (by rw [← this]; decide)
    · rw [if_neg hx] at hu
      have := fileOf _ _ _ _ hup2 hwp hsl hd' hu
      rw [withExt, if_neg hx] at this
      by_cases h2 : ext = lit "."
      · rw [if_pos h2] at this
        have := List.append_cancel_left this
        revert this; decide
      · rw [if_neg h2, List.append_assoc] at this
        have := List.append_cancel_left this
        have he : lit ".u." = lit "." ++ lit "u." := rfl
        rw [he] at this
        have := List.append_cancel_left this
        rcases hp.dot with h | h
        · exact h2 h
        · exact h (by rw [← this]; decide)
  rcases hp.whole with ⟨sep, hs, he⟩ | ⟨he, hd⟩
  · exact main (dir ++ [sep]) (.inr ⟨sep, by simp, hs⟩) he
  · rcases hd with hd | ⟨b, hd⟩ | ⟨h1, h2, b, hh, hd⟩
    · exact main dir (.inl hd) he
    · exact main dir (.inr ⟨0x2F, by rw [hd]; simp [lit], .inl rfl⟩) he
    · -- only a host
      rw [he, if_pos h2, withExt, if_pos h2, h1] at hu
      have hl := congrArg List.length hu
      obtain ⟨s1, _⟩ := slashed_length dir
      have h2 : (lit "u.").length = 2 := rfl
      simp only [List.length_append, h2, List.length_nil] at hl
      omega

example : partName usual (lit "/data/a.mkv") 0 = .ok (lit "/data/a.u.") ∧ partName usual (lit "/data/a.mkv") 1 = .bad := by decide +kernel

end Verif.Url
