import Verif.Core.UrlLemmas
import Verif.Props.Printf
/-!
Property theorems C153 to C158: paths, and the names of the files mkclean and mkparts write.
-/
set_option linter.unusedSimpArgs false
namespace Verif.Url
open Verif Verif.Mkv

/-! ### C153 -/

/-- A name with its extension. -/
def withExt (name ext : Str) : Str := if ext = [] then name else if ext = lit "." then name ++ lit "." else name ++ lit "." ++ ext

/-- `u` is the path with these parts. -/
structure Parts (u dir name ext : Str) : Prop where
  plain : ∀ c ∈ name ++ ext, c ≠ 0x2F ∧ c ≠ 0x5C
  dot : ext = lit "." ∨ 0x2E ∉ ext
  noDot : ext = [] → 0x2E ∉ name
  whole : (∃ sep, (sep = 0x2F ∨ sep = 0x5C) ∧ u = dir ++ [sep] ++ withExt name ext) ∨
    (u = dir ++ withExt name ext ∧ (dir = [] ∨ (∃ b, dir = b ++ lit "://") ∨ (name = [] ∧ ext = [] ∧ ∃ b h, dir = b ++ lit "://" ++ h)))

/-- An http URL (in any case) with a `#`. -/
def HttpFragment (u : Str) : Prop := 0x23 ∈ u ∧ ∃ b r, u = b ++ lit "://" ++ r ∧ 0x3A ∉ b ∧ ieq (b.dropWhile isSpace) (lit "http") = true

theorem delim_false (c : Nat) : delim c = false ↔ c ≠ 0x2F ∧ c ≠ 0x5C := by
  simp [delim]

theorem delim_true (c : Nat) : delim c = true ↔ c = 0x2F ∨ c = 0x5C := by
  simp [delim]

theorem splitName_spec (f : Str) :
    withExt (splitName f).1 (splitName f).2 = f ∧ ((splitName f).2 = lit "." ∨ 0x2E ∉ (splitName f).2) ∧
    ((splitName f).2 = [] → 0x2E ∉ (splitName f).1) ∧ ∀ c ∈ (splitName f).1 ++ (splitName f).2, c ∈ f := by
  have hd : lit "." = [0x2E] := rfl
  unfold splitName
  cases h : lastIdx (· == 0x2E) f with
  | none =>
    have := (lastIdx_none _ f).1 h
    have hn : 0x2E ∉ f := fun hm => by simpa using this _ hm
    refine ⟨by simp [withExt], .inr (by simp), fun _ => hn, by simp⟩
  | some i =>
    obtain ⟨a, c, b, e, hl, hc, hb⟩ := lastIdx_some _ f i h
    simp only [beq_iff_eq] at hc
    subst hc
    have hnb : 0x2E ∉ b := fun hm => by simpa using hb _ hm
    have h1 : f.take i = a := by rw [e, ← hl, List.take_left]
    have h2 : f.drop i = 0x2E :: b := by rw [e, ← hl, List.drop_left]
    have h3 : f.drop (i + 1) = b := by rw [← List.drop_drop, h2]; rfl
    simp only [h1, h2, h3]
    by_cases hbe : b = []
    · subst hbe
      simp only [if_true]
      refine ⟨by rw [e]; simp [withExt, hd], .inl hd.symm, by simp, by rw [e]; simp⟩
    · rw [if_neg hbe]
      refine ⟨?_, .inr hnb, fun h => absurd h hbe, ?_⟩
      · have : b ≠ lit "." := by
          rintro rfl; exact hnb (by simp [hd])
        rw [withExt, if_neg hbe, if_neg this, e, hd]
        simp
      · rw [e]; intro c; simp; grind

theorem splitDir_spec (u : Str) :
    (∀ c ∈ (splitDir u).2, delim c = false) ∧
    ((∃ sep, (sep = 0x2F ∨ sep = 0x5C) ∧ u = (splitDir u).1 ++ [sep] ++ (splitDir u).2) ∨
     (u = (splitDir u).1 ++ (splitDir u).2 ∧ ((splitDir u).1 = [] ∨ (∃ b, (splitDir u).1 = b ++ lit "://") ∨
        ((splitDir u).2 = [] ∧ ∃ b h, (splitDir u).1 = b ++ lit "://" ++ h)))) := by
  simp only [splitDir]
  cases h : lastIdx delim (u.drop (protoEnd u)) with
  | some i =>
    obtain ⟨a, c, b, e, hl, hc, hb⟩ := lastIdx_some _ _ i h
    have h1 : u.take (protoEnd u + i) = u.take (protoEnd u) ++ a := by
      rw [List.take_add, e, ← hl, List.take_left]
    have h2 : u.drop (protoEnd u + i + 1) = b := by
      rw [Nat.add_assoc, ← List.drop_drop, e, ← hl]
      simp
    simp only [h1, h2]
    refine ⟨hb, .inl ⟨c, (delim_true c).1 hc, ?_⟩⟩
    conv => lhs; rw [← List.take_append_drop (protoEnd u) u, e]
    simp
  | none =>
    have hn := (lastIdx_none _ _).1 h
    by_cases hh : hasHost u = true
    · simp only [hh, if_true]
      refine ⟨by simp, .inr ⟨by simp, .inr (.inr ⟨by simp, ?_⟩)⟩⟩
      cases hs : scheme u with
      | none => simp [hasHost, hs] at hh
      | some b =>
        obtain ⟨r, e, _⟩ := (scheme_some u b).1 hs
        exact ⟨b, r, e⟩
    · simp only [hh]
      refine ⟨hn, .inr ⟨by simp, ?_⟩⟩
      rcases take_protoEnd u with h | ⟨b, h, _⟩
      · exact .inl h
      · exact .inr (.inl ⟨b, h⟩)

theorem copy_ieq (cap : Nat) (x s : Str) (hc : s.length + 1 < cap) (h : ieq (copy cap x) s = true) : ieq x s = true := by
  have hl : (copy cap x).length = s.length := by
    have := congrArg List.length (beq_iff_eq.1 h)
    simpa using this
  have : copy cap x = x := by
    unfold copy at hl ⊢
    rw [List.length_take] at hl
    exact List.take_of_length_le (by omega)
  rwa [this] at h

theorem cutFragment_none (maxPath : Nat) (u : Str) (hm : 6 ≤ maxPath) (h : ¬ HttpFragment u) (f : Str) (hf : ∀ c ∈ f, c ∈ u) :
    cutFragment maxPath u f = .ok f := by
  unfold cutFragment
  rw [if_neg]
  intro hc
  rw [Bool.and_eq_true] at hc
  obtain ⟨h1, h2⟩ := hc
  have h2 : 0x23 ∈ f := by simpa using h2
  refine h ⟨hf _ h2, ?_⟩
  unfold protoName at h1
  have h1 := copy_ieq maxPath _ (lit "http") (by simp [lit]; omega) h1
  cases hs : scheme u with
  | none => rw [hs] at h1; exact absurd h1 (by decide)
  | some b =>
    rw [hs] at h1
    obtain ⟨r, e, hb⟩ := (scheme_some u b).1 hs
    exact ⟨b, r, e, hb, h1⟩

theorem splitDir_mem (u : Str) : ∀ c ∈ (splitDir u).2, c ∈ u := by
  intro c hc
  simp only [splitDir] at hc
  split at hc
  · exact List.mem_of_mem_drop hc
  · split at hc
    · cases hc
    · exact List.mem_of_mem_drop hc

/-- C153. Splitting a path gives a directory, a name without delimiters and an extension, and the path is these parts
put together again: with one delimiter between directory and name (or none behind `://`) and a dot in front of the
extension. For all paths but http URLs with a fragment. -/
theorem C153_split_joins_partial (maxPath : Nat) (hm : 6 ≤ maxPath) (u : Str) (h : ¬ HttpFragment u) :
    ∃ dir name ext, splitPath maxPath u = .ok (dir, name, ext) ∧ Parts u dir name ext := by
  obtain ⟨h1, h2⟩ := splitDir_spec u
  obtain ⟨n1, n2, n3, n4⟩ := splitName_spec (splitDir u).2
  refine ⟨(splitDir u).1, (splitName (splitDir u).2).1, (splitName (splitDir u).2).2, ?_, ?_, n2, n3, ?_⟩
  · simp only [splitPath, cutFragment_none maxPath u hm h _ (splitDir_mem u), Out.bind]
  · intro c hc
    exact (delim_false c).1 (h1 c (n4 c hc))
  · rw [n1]
    rcases h2 with h2 | ⟨h2, h3 | h3 | ⟨h3, h4⟩⟩
    · exact .inl h2
    · exact .inr ⟨h2, .inl h3⟩
    · exact .inr ⟨h2, .inr (.inl h3)⟩
    · refine .inr ⟨h2, .inr (.inr ⟨?_, ?_, h4⟩)⟩ <;> rw [h3] <;> rfl

/-- C153, http: the fragment is ignored, if the file fits the buffer up to it. -/
theorem C153_fragment_ignored (maxPath : Nat) (b d f g : Str) (hb : 0x3A ∉ b) (hh : ieq (b.dropWhile isSpace) (lit "http") = true)
    (hf : ∀ c ∈ f, c ≠ 0x2F ∧ c ≠ 0x5C ∧ c ≠ 0x23) (hg : ∀ c ∈ g, c ≠ 0x2F ∧ c ≠ 0x5C ∧ c ≠ 0x23) (hm : 6 ≤ maxPath) (hl : f.length + 1 < maxPath) :
    splitPath maxPath (b ++ lit "://" ++ d ++ lit "/" ++ f ++ lit "#" ++ g) = splitPath maxPath (b ++ lit "://" ++ d ++ lit "/" ++ f) ∧
    splitPath maxPath (b ++ lit "://" ++ d ++ lit "/" ++ f) = .ok (b ++ lit "://" ++ d, splitName f) := by
  have key : ∀ x : Str, (∀ c ∈ x, c ≠ 0x2F ∧ c ≠ 0x5C) → splitDir (b ++ lit "://" ++ d ++ lit "/" ++ x) = (b ++ lit "://" ++ d, x) := by
    intro x hx
    have hs : scheme (b ++ lit "://" ++ d ++ lit "/" ++ x) = some b := (scheme_some _ b).2 ⟨d ++ lit "/" ++ x, by simp, hb⟩
    have he : protoEnd (b ++ lit "://" ++ d ++ lit "/" ++ x) = (b ++ lit "://").length := by
      simp only [protoEnd, hs]
      simp [lit]
    have hd : (b ++ lit "://" ++ d ++ lit "/" ++ x).drop (b ++ lit "://").length = d ++ 0x2F :: x := by
      rw [List.append_assoc, List.append_assoc, List.drop_left]
      simp [lit]
    simp only [splitDir, he, hd]
    rw [lastIdx_at delim d 0x2F x rfl (fun c hc => (delim_false c).2 (hx c hc))]
    simp only
    congr 1
    · rw [← List.length_append, List.append_assoc (b ++ lit "://" ++ d), List.take_left]
    · rw [← List.length_append]
      have : (b ++ lit "://" ++ d).length + 1 = (b ++ lit "://" ++ d ++ lit "/").length := by
        have h1 : (lit "/").length = 1 := rfl
        rw [List.length_append (bs := lit "/"), h1]
      rw [this, List.drop_left]
  have k1 := key f fun c hc => ⟨(hf c hc).1, (hf c hc).2.1⟩
  have k2 := key (f ++ lit "#" ++ g) (by
    intro c hc
    simp only [List.mem_append] at hc
    rcases hc with (hc | hc) | hc
    · exact ⟨(hf c hc).1, (hf c hc).2.1⟩
    · have : c = 0x23 := by simpa [lit] using hc
      subst this; decide
    · exact ⟨(hg c hc).1, (hg c hc).2.1⟩)
  have e2 : b ++ lit "://" ++ d ++ lit "/" ++ f ++ lit "#" ++ g = b ++ lit "://" ++ d ++ lit "/" ++ (f ++ lit "#" ++ g) := by simp
  have nof : 0x23 ∉ f := fun h => (hf _ h).2.2 rfl
  have nog : 0x23 ∉ g := fun h => (hg _ h).2.2 rfl
  have second : splitPath maxPath (b ++ lit "://" ++ d ++ lit "/" ++ f) = .ok (b ++ lit "://" ++ d, splitName f) := by
    simp only [splitPath, k1, cutFragment]
    rw [if_neg (by simp [nof])]
    rfl
  refine ⟨?_, second⟩
  rw [second, e2]
  simp only [splitPath, k2, cutFragment]
  have hs : scheme (b ++ lit "://" ++ d ++ lit "/" ++ (f ++ lit "#" ++ g)) = some b :=
    (scheme_some _ b).2 ⟨d ++ lit "/" ++ (f ++ lit "#" ++ g), by simp, hb⟩
  have hp : ieq (protoName maxPath (b ++ lit "://" ++ d ++ lit "/" ++ (f ++ lit "#" ++ g))) (lit "http") = true := by
    simp only [protoName, hs, copy]
    rw [List.take_of_length_le]
    · exact hh
    · have := congrArg List.length (beq_iff_eq.1 hh)
      simp only [List.length_map] at this
      have h4 : (lit "http").length = 4 := rfl
      omega
  rw [if_pos (by rw [hp]; simp [lit])]
  have hcopy : copy maxPath (f ++ lit "#" ++ g) = f ++ 0x23 :: g.take (maxPath - 2 - f.length) := by
    unfold copy
    have : f ++ lit "#" ++ g = (f ++ [0x23]) ++ g := rfl
    rw [this, List.take_append, List.take_of_length_le (by simp; omega)]
    simp only [List.length_append, List.length_singleton, List.append_assoc, List.singleton_append]
    congr 3
    omega
  rw [hcopy, lastIdx_at _ f 0x23 _ rfl (by
    intro c hc
    have := (hg c (List.mem_of_mem_take hc)).2.2
    simpa using this)]
  simp only [Out.bind]
  rw [List.append_assoc f, List.take_left]

example : splitPath 4096 (lit "/home/a.b/movie.part1.mkv") = .ok (lit "/home/a.b", lit "movie.part1", lit "mkv") ∧
    splitPath 4096 (lit "http://host/x/y.mkv#t=5") = .ok (lit "http://host/x", lit "y", lit "mkv") ∧
    splitPath 4096 (lit "http://host") = .ok (lit "http://host", [], []) ∧
    splitPath 4096 (lit "file://a.") = .ok (lit "file://", lit "a", lit ".") ∧
    ¬ HttpFragment (lit "/home/a.b/movie.part1.mkv") := by
  refine ⟨by decide +kernel, by decide +kernel, by decide +kernel, by decide +kernel, ?_⟩
  rintro ⟨h, _⟩
  revert h; decide +kernel

/-- C153 as hoped for: splitting works for all paths, and paths that differ differ in a part. -/
def SplitFaithful : Prop :=
  ∀ maxPath, 6 ≤ maxPath → (∀ u, ∃ r, splitPath maxPath u = .ok r) ∧ ∀ u v, splitPath maxPath u = splitPath maxPath v → u = v

/-- C153 fails: the root is lost. -/
theorem C153_root_counterexample : ¬ SplitFaithful := by
  intro h
  have := (h 4096 (by decide)).2 (lit "/a") (lit "a") (by decide +kernel)
  revert this; decide

/-- C153 fails for http URLs with a `#` behind a long name: `tcsrchr` finds nothing in the shortened copy and the null
pointer is written to. -/
theorem C153_long_fragment_counterexample (maxPath : Nat) (hm : 6 ≤ maxPath) :
    splitPath maxPath (lit "http://h/" ++ List.replicate maxPath 0x61 ++ lit "#") = .bad := by
  have hs : scheme (lit "http://h/" ++ List.replicate maxPath 0x61 ++ lit "#") = some (lit "http") :=
    (scheme_some _ _).2 ⟨lit "h/" ++ List.replicate maxPath 0x61 ++ lit "#", by simp [lit], by decide⟩
  have he : protoEnd (lit "http://h/" ++ List.replicate maxPath 0x61 ++ lit "#") = 7 := by
    simp only [protoEnd, hs]; rfl
  have hd : (lit "http://h/" ++ List.replicate maxPath 0x61 ++ lit "#").drop 7 = [0x68] ++ 0x2F :: (List.replicate maxPath 0x61 ++ lit "#") := by
    simp [lit]
  have hdir : splitDir (lit "http://h/" ++ List.replicate maxPath 0x61 ++ lit "#") = (lit "http://h", List.replicate maxPath 0x61 ++ lit "#") := by
    simp only [splitDir, he, hd]
    rw [lastIdx_at delim [0x68] 0x2F _ rfl (by
      intro c hc
      simp only [List.mem_append, List.mem_replicate] at hc
      rcases hc with ⟨_, rfl⟩ | hc
      · rfl
      · have : c = 0x23 := by simpa [lit] using hc
        subst this; rfl)]
    simp [lit]
  have hp : ieq (protoName maxPath (lit "http://h/" ++ List.replicate maxPath 0x61 ++ lit "#")) (lit "http") = true := by
    simp only [protoName, hs, copy]
    rw [List.take_of_length_le (by
      have : (List.dropWhile isSpace (lit "http")).length = 4 := rfl
      omega)]
    rfl
  simp only [splitPath, hdir, cutFragment]
  rw [if_pos (by rw [hp]; simp [lit])]
  have hcopy : copy maxPath (List.replicate maxPath 0x61 ++ lit "#") = List.replicate (maxPath - 1) 0x61 := by
    unfold copy
    rw [List.take_append_of_le_length (by simp), List.take_replicate]
    congr 1; omega
  rw [hcopy, (lastIdx_none _ _).2 (by intro c hc; rw [(List.mem_replicate.1 hc).2]; rfl)]
  rfl

end Verif.Url
