import Verif.Props.UrlNames
/-!
Property theorems C156 to C158: relative and absolute paths, parent directories, types by extension.
-/
set_option linter.unusedSimpArgs false
namespace Verif.Url
open Verif Verif.Mkv

/-! ### C156 -/

theorem ieq_refl (a : Str) : ieq a a = true := by simp [ieq]

theorem cat_room (cap : Nat) (a b : Str) (h : a.length + b.length < cap) : cat cap a b = a ++ b := by
  unfold cat
  rw [if_pos (by omega), copy_all _ _ (by omega)]

theorem below_prefix (B R : Str) (d : Nat) (hd : delim d = true) (hB : B ≠ []) : below B.length (B ++ d :: R) B = true := by
  have h0 : 0 < B.length := List.length_pos_iff.2 hB
  simp [below, h0, nieq, hd, ieq_refl]

theorem normalize_id (a : Str) (h : scheme a = none ∨ 0x5C ∉ a) : normalize a = a := by
  unfold normalize
  by_cases hs : protoEnd a ≠ 0
  · rw [if_pos hs]
    rcases h with h | h
    · exact absurd ((protoEnd_zero a).2 h) hs
    · conv => rhs; rw [← List.map_id a]
      apply List.map_congr_left
      intro c hc
      simp only [id]
      by_cases hcc : c = 0x5C
      · subst hcc; exact absurd hc h
      · rw [if_neg hcc]
  · rw [if_neg hs]

/-- A path that is looked up below a directory: no protocol, drive or delimiter in front. -/
structure Relative (R : Str) : Prop where
  proto : scheme R = none
  first : ∀ c, R.head? = some c → c ≠ 0x2F ∧ c ≠ 0x5C
  drive : drive R = false

theorem rel_not_rooted {R : Str} (h : Relative R) : rooted R = false := by
  cases R with
  | nil => rfl
  | cons a r =>
    have := (delim_false a).2 (h.first a rfl)
    cases r <;> simp [rooted, this]

theorem rel_head {R : Str} (h : Relative R) : (R.head?.map delim == some true) = false := by
  cases R with
  | nil => rfl
  | cons a r =>
    have := (delim_false a).2 (h.first a rfl)
    simp [this]

theorem rooted_slash {R : Str} (h : Relative R) : rooted (0x2F :: R) = true := by
  cases R with
  | nil => rfl
  | cons a r =>
    have := (delim_false a).2 (h.first a rfl)
    simp only [rooted, this]
    rfl

theorem hostEnd_le (s : Str) : hostEnd s ≤ s.length := (List.takeWhile_prefix _).length_le

theorem hostEnd_delim (s : Str) (h : hostEnd s < s.length) : ∃ d r, delim d = true ∧ s.drop (hostEnd s) = d :: r := by
  unfold hostEnd at *
  have e : s.drop (s.takeWhile fun c => !delim c).length = s.dropWhile fun c => !delim c := by
    have := List.takeWhile_append_dropWhile (p := fun c => !delim c) (l := s)
    conv => lhs; arg 2; rw [← this]
    rw [List.drop_left]
  rw [e]
  cases hd : s.dropWhile fun c => !delim c with
  | nil =>
    have := congrArg List.length (List.takeWhile_append_dropWhile (p := fun c => !delim c) (l := s))
    rw [hd] at this
    simp at this
    omega
  | cons d r =>
    refine ⟨d, r, ?_, rfl⟩
    have := List.head?_dropWhile_not (fun c => !delim c) s
    rw [hd] at this
    simpa using this

/-- What `RelPath` leaves of a path below the base. -/
theorem relPath_below (cap : Nat) (B R : Str) (hB : B ≠ []) (hl : B.getLast? ≠ some 0x2F) (hcap : B.length + R.length + 1 < cap) :
    (relPath cap (B ++ 0x2F :: R) B = R ∧ B.drop (protoEnd B) ≠ []) ∨
    (relPath cap (B ++ 0x2F :: R) B = 0x2F :: R ∧ scheme B ≠ none ∧ hasHost B = true ∧ protoEnd B + hostEnd (B.drop (protoEnd B)) = B.length) := by
  have hb := below_prefix B R 0x2F rfl hB
  have hend : protoEnd B < B.length := by
    rcases Nat.lt_or_ge (protoEnd B) B.length with h | h
    · exact h
    · exfalso
      rcases take_protoEnd B with h2 | ⟨b, h2, _⟩
      · rw [List.take_of_length_le h] at h2; exact hB h2
      · rw [List.take_of_length_le h] at h2
        exact hl (by rw [h2]; simp [lit])
  have hne : B.drop (protoEnd B) ≠ [] := by
    intro h
    have := congrArg List.length h
    simp at this
    omega
  have hdrop : (B ++ 0x2F :: R).drop (B.length + 1) = R := by
    have e : B ++ 0x2F :: R = (B ++ [0x2F]) ++ R := by simp
    rw [e]
    have : (B ++ [0x2F]).length = B.length + 1 := by simp
    rw [← this, List.drop_left]
  have hwhole : copy cap (if below B.length (B ++ 0x2F :: R) B then (B ++ 0x2F :: R).drop (B.length + 1) else B ++ 0x2F :: R) = R := by
    rw [if_pos hb, hdrop, copy_all _ _ (by omega)]
  -- the rest behind the first `n` characters
  have hcut : ∀ n, n ≤ B.length → B.drop n ≠ [] →
      copy cap (if below (B.drop n).length ((B ++ 0x2F :: R).drop n) (B.drop n) then ((B ++ 0x2F :: R).drop n).drop ((B.drop n).length + 1) else (B ++ 0x2F :: R).drop n) = R := by
    intro n hn hd
    have e : (B ++ 0x2F :: R).drop n = B.drop n ++ 0x2F :: R := List.drop_append_of_le_length hn
    rw [e, if_pos (below_prefix _ R 0x2F rfl hd)]
    have e2 : B.drop n ++ 0x2F :: R = (B.drop n ++ [0x2F]) ++ R := by simp
    have : (B.drop n ++ [0x2F]).length = (B.drop n).length + 1 := by simp
    rw [e2, ← this, List.drop_left, copy_all _ _ (by omega)]
  by_cases he : protoEnd B = 0
  · refine .inl ⟨?_, hne⟩
    simp only [relPath, he]
    exact hwhole
  · by_cases hh : hasHost B = true
    · simp only [relPath, hh, if_true]
      generalize hn : protoEnd B + hostEnd (B.drop (protoEnd B)) = n
      have hle := hostEnd_le (B.drop (protoEnd B))
      simp only [List.length_drop] at hle
      have hnB : n ≤ B.length := by omega
      by_cases hbl : below n (B ++ 0x2F :: R) B = true
      · have hc : (decide (protoEnd B ≠ 0) && below n (B ++ 0x2F :: R) B) = true := by simp [he, hbl]
        rw [if_pos hc]
        by_cases hnl : n < B.length
        · refine .inl ⟨?_, hne⟩
          exact hcut n hnB (by intro h; have := congrArg List.length h; simp at this; omega)
        · have hnl : n = B.length := by omega
          refine .inr ⟨?_, ?_, trivial, hnl⟩
          · rw [hnl]
            simp only [List.drop_left, List.drop_length, List.length_nil]
            rw [if_neg (by simp [below]), copy_all _ _ (by simp; omega)]
          · intro h; exact he ((protoEnd_zero B).2 h)
      · -- cannot be
        exfalso
        apply hbl
        have hn0 : 0 < n := by omega
        have hP : ∃ d, (B ++ 0x2F :: R)[n]? = some d ∧ delim d = true := by
          by_cases hnl : n < B.length
          · obtain ⟨d, r, hd, hr⟩ := hostEnd_delim (B.drop (protoEnd B)) (by simp; omega)
            refine ⟨d, ?_, hd⟩
            rw [List.getElem?_append_left hnl]
            rw [List.drop_drop, hn] at hr
            have := congrArg List.head? hr
            rw [List.head?_drop] at this
            simpa using this
          · have hnl : n = B.length := by omega
            exact ⟨0x2F, by rw [hnl]; simp, rfl⟩
        obtain ⟨d, hd, hdd⟩ := hP
        have hni : nieq n (B ++ 0x2F :: R) B = true := by
          unfold nieq
          rw [List.take_append_of_le_length hnB]
          exact ieq_refl _
        have hlen : n < (B ++ 0x2F :: R).length := by simp; omega
        simp [below, hn0, hd, hdd, hni]
        omega
    · refine .inl ⟨?_, hne⟩
      simp only [relPath, hh]
      by_cases hbl : (decide (protoEnd B ≠ 0) && below (protoEnd B) (B ++ 0x2F :: R) B) = true
      · have hbl' := hbl
        simp only [Bool.false_eq_true, if_false]
        rw [if_pos hbl']
        exact hcut _ (by omega) hne
      · simp only [Bool.false_eq_true, if_false]
        rw [if_neg hbl]
        exact hwhole

theorem hasHost_scheme (B : Str) (h : scheme B = none) : hasHost B = false := by simp [hasHost, h]

theorem absPath_rel (cap : Nat) (B R : Str) (hne : B.drop (protoEnd B) ≠ []) (hl : B.getLast? ≠ some 0x2F) (hR : Relative R)
    (hcap : B.length + R.length + 1 < cap) : absPath cap R B = normalize (B ++ 0x2F :: R) := by
  unfold absPath
  rw [if_neg (by simp [rel_not_rooted hR]), if_pos (by simp only [(protoEnd_zero R).2 hR.proto, rel_head hR, hR.drive]; rfl)]
  simp only
  rw [copy_all cap B (by omega), if_pos hne]
  unfold addDelim
  rw [if_neg hl, cat_room cap B _ (by simp; omega), cat_room cap _ R (by simp; omega)]
  simp

theorem absPath_root (cap : Nat) (B R : Str) (hs : scheme B ≠ none) (hh : hasHost B = true) (he : protoEnd B + hostEnd (B.drop (protoEnd B)) = B.length)
    (hR : Relative R) (hcap : B.length + R.length + 1 < cap) : absPath cap (0x2F :: R) B = normalize (B ++ 0x2F :: R) := by
  unfold absPath
  have h1 : protoEnd B ≠ 0 := fun h => hs ((protoEnd_zero B).1 h)
  rw [if_pos (by simp [rooted_slash hR, h1])]
  simp only
  rw [copy_all cap B (by omega), if_pos hh, he, List.take_length, cat_room cap B _ (by simp; omega)]

/-- C156. A path below a base, made relative and absolute again, is the path: for bases with and without protocol and host. -/
theorem C156_relative_and_back_partial (cap : Nat) (B R : Str) (hB : B ≠ []) (hl : B.getLast? ≠ some 0x2F) (hR : Relative R)
    (hcap : B.length + R.length + 1 < cap) (hn : scheme (B ++ lit "/" ++ R) = none ∨ 0x5C ∉ B ++ R) :
    absPath cap (relPath cap (B ++ lit "/" ++ R) B) B = B ++ lit "/" ++ R := by
  have e : B ++ lit "/" ++ R = B ++ 0x2F :: R := by simp [lit]
  rw [e] at hn ⊢
  have hid : normalize (B ++ 0x2F :: R) = B ++ 0x2F :: R := by
    apply normalize_id
    rcases hn with h | h
    · exact .inl h
    · right
      simp only [List.mem_append, List.mem_cons, not_or] at h ⊢
      exact ⟨h.1, by decide, h.2⟩
  rcases relPath_below cap B R hB hl hcap with ⟨h1, h2⟩ | ⟨h1, h2, h3, h4⟩
  · rw [h1, absPath_rel cap B R h2 hl hR hcap, hid]
  · rw [h1, absPath_root cap B R h2 h3 h4 hR hcap, hid]

/-- C156, without a protocol: a path below the base keeps what is behind it, any other path is left as it is. Case does
not matter. -/
theorem C156_relative_plain (cap : Nat) (P B : Str) (hs : scheme B = none) (hB : B ≠ []) (hcap : P.length < cap) :
    (∀ B' d R, P = B' ++ d :: R → ieq B' B = true → (d = 0x2F ∨ d = 0x5C) → relPath cap P B = R) ∧
    ((∀ B' d R, P = B' ++ d :: R → ieq B' B = true → ¬ (d = 0x2F ∨ d = 0x5C)) → relPath cap P B = P) := by
  have h0 : 0 < B.length := List.length_pos_iff.2 hB
  have hr : relPath cap P B = copy cap (if below B.length P B then P.drop (B.length + 1) else P) := by
    simp [relPath, (protoEnd_zero B).2 hs]
  constructor
  · intro B' d R e hi hd
    have hlen : B'.length = B.length := by
      have := congrArg List.length (eq_of_beq hi)
      simpa using this
    have hb : below B.length P B = true := by
      rw [e, ← hlen]
      have hBl : B.take B'.length = B := by rw [hlen]; exact List.take_length
      simp [below, nieq, (delim_true d).2 hd, hBl, hi]
      omega
    rw [hr, if_pos hb, e, ← hlen]
    have e2 : B' ++ d :: R = (B' ++ [d]) ++ R := by simp
    have : (B' ++ [d]).length = B'.length + 1 := by simp
    rw [e2, ← this, List.drop_left, copy_all]
    rw [e] at hcap
    simp at hcap
    omega
  · intro h
    rw [hr, if_neg, copy_all _ _ hcap]
    intro hb
    simp only [below, Bool.and_eq_true, decide_eq_true_eq, beq_iff_eq] at hb
    obtain ⟨⟨⟨_, h2⟩, h3⟩, h4⟩ := hb
    cases hd : P[B.length]? with
    | none => rw [hd] at h3; cases h3
    | some d =>
      rw [hd] at h3
      simp only [Option.map_some, Option.some.injEq] at h3
      refine h (P.take B.length) d (P.drop (B.length + 1)) ?_ ?_ ((delim_true d).1 h3)
      · obtain ⟨hlt, hget⟩ := List.getElem?_eq_some_iff.1 hd
        conv => lhs; rw [← List.take_append_drop B.length P, List.drop_eq_getElem_cons hlt, hget]
      · unfold nieq at h4
        rwa [List.take_length] at h4

/-- A path of its own: with a protocol or from the root. -/
def Absolute (P : Str) : Prop := scheme P ≠ none ∨ P.head? = some 0x2F

/-- C156: an address, and a path that begins with two delimiters, do not depend on the base. -/
theorem C156_absolute (cap : Nat) (P B : Str) (hcap : P.length < cap) (h5 : scheme P = none ∨ 0x5C ∉ P)
    (h : (scheme P ≠ none ∧ ∀ c, P.head? = some c → ¬ (c = 0x2F ∨ c = 0x5C)) ∨
      ∃ c d R, P = c :: d :: R ∧ (c = 0x2F ∨ c = 0x5C) ∧ (d = 0x2F ∨ d = 0x5C)) : absPath cap P B = P := by
  have hcat : cat cap [] P = P := by rw [cat_room _ _ _ (by simpa using hcap)]; rfl
  have hid := normalize_id P h5
  rcases h with ⟨hs, hh⟩ | ⟨c, d, R, rfl, hc, hd⟩
  · have hp : (protoEnd P == 0) = false := by
      rw [beq_eq_false_iff_ne]
      exact fun e => hs ((protoEnd_zero P).1 e)
    have hr : rooted P = false := by
      cases P with
      | nil => rfl
      | cons a l =>
        have ha : delim a = false := by
          have := hh a rfl
          rw [← delim_true] at this
          simpa using this
        cases l <;> simp [rooted, ha]
    unfold absPath
    rw [hr, hp, Bool.and_false, Bool.false_and, Bool.false_and, if_neg (by simp), if_neg (by simp), hcat, hid]
  · have hr : rooted (c :: d :: R) = false := by simp [rooted, (delim_true d).2 hd]
    unfold absPath
    rw [hr, Bool.and_false, if_neg (by simp), if_neg (by simp [(delim_true c).2 hc]), hcat, hid]

example : absPath 100 (lit "http://h/a") (lit "/dir") = lit "http://h/a" ∧ absPath 100 (lit "//srv/a") (lit "http://h") = lit "//srv/a" := by
  constructor <;> decide +kernel

/-- C156 as hoped for. -/
def RelAbs : Prop := ∀ cap P B : _, P.length + B.length + 1 < cap → Absolute P → Absolute B → absPath cap (relPath cap P B) B = P

/-- C156 fails where case matters, as on Linux: `/Movies/a` becomes `/movies/a`. -/
theorem C156_case_counterexample : ¬ RelAbs ∧ absPath 100 (relPath 100 (lit "/Movies/a") (lit "/movies")) (lit "/movies") = lit "/movies/a" := by
  have h1 : absPath 100 (relPath 100 (lit "/Movies/a") (lit "/movies")) (lit "/movies") = lit "/movies/a" := by decide +kernel
  refine ⟨fun h => ?_, h1⟩
  have := h 100 (lit "/Movies/a") (lit "/movies") (by decide +kernel) (.inr (by decide +kernel)) (.inr (by decide +kernel))
  rw [h1] at this
  revert this; decide +kernel

/-- C156 fails where the base has only a protocol: the root is lost; and local paths turn into addresses. -/
theorem C156_root_counterexample :
    absPath 100 (relPath 100 (lit "file:///a") (lit "file://")) (lit "file://") = lit "file://a" ∧
    absPath 100 (relPath 100 (lit "/local/a") (lit "http://h")) (lit "http://h") = lit "http://h/local/a" := by
  constructor <;> decide +kernel

example : relPath 100 (lit "http://h/dir/sub/a.mkv") (lit "http://h/dir") = lit "sub/a.mkv" ∧
    relPath 100 (lit "http://h/a.mkv") (lit "http://h") = lit "/a.mkv" ∧ Relative (lit "sub/a.mkv") ∧ Relative (lit "a.mkv") ∧
    absPath 100 (lit "/a.mkv") (lit "http://h/other") = lit "http://h/a.mkv" := by
  refine ⟨by decide +kernel, by decide +kernel, ⟨by decide +kernel, ?_, by decide +kernel⟩, ⟨by decide +kernel, ?_, by decide +kernel⟩, by decide +kernel⟩
  · intro c hc
    have : c = 0x73 := by
      have : (lit "sub/a.mkv").head? = some 0x73 := by decide +kernel
      rw [this] at hc; simpa using hc.symm
    subst this; decide
  · intro c hc
    have : c = 0x61 := by
      have : (lit "a.mkv").head? = some 0x61 := by decide +kernel
      rw [this] at hc; simpa using hc.symm
    subst this; decide

/-! ### C157 -/

/-- The path is on a Windows share. -/
def Share (p : Str) : Prop := ∃ b r, p = b ++ lit "://" ++ r ∧ 0x3A ∉ b ∧ ieq (b.dropWhile isSpace) (lit "smb") = true

theorem removeDelim_cases (p : Str) : removeDelim p = p ∨ removeDelim p ++ lit "/" = p := by
  unfold removeDelim
  split
  · rename_i h
    right
    have hne : p ≠ [] := by intro e; simp [e] at h
    have := List.dropLast_concat_getLast hne
    rw [List.getLast?_eq_some_getLast hne] at h
    simp only [Option.some.injEq] at h
    rw [h.2.2] at this
    exact this
  · exact .inl rfl

theorem removeDelim_ne (p : Str) (h : p ≠ []) : removeDelim p ≠ [] := by
  unfold removeDelim
  split
  · rename_i h2
    intro e
    have := congrArg List.length e
    simp at this
    omega
  · exact h

theorem not_smb {p q : Str} (hp : ¬ Share p) (hq : ∃ r, p = q ++ r) : ieq (protoName 32 q) (lit "smb") = false := by
  rw [Bool.eq_false_iff]
  intro h
  have := copy_ieq 32 _ (lit "smb") (by simp [lit]) h
  cases hs : scheme q with
  | none => rw [hs] at this; revert this; decide
  | some b =>
    rw [hs] at this
    obtain ⟨r, e, hb⟩ := (scheme_some q b).1 hs
    obtain ⟨r', e'⟩ := hq
    exact hp ⟨b, r ++ r', by rw [e', e]; simp [List.append_assoc], hb, this⟩

theorem trimDelims_spec (s : Str) : ∃ seps, s = trimDelims s ++ seps ∧ (∀ c ∈ seps, c = 0x2F ∨ c = 0x5C) ∧ (∀ c, (trimDelims s).getLast? = some c → c ≠ 0x2F ∧ c ≠ 0x5C) := by
  refine ⟨(s.reverse.takeWhile delim).reverse, ?_, ?_, ?_⟩
  · unfold trimDelims
    rw [← List.reverse_append, List.takeWhile_append_dropWhile, List.reverse_reverse]
  · intro c hc
    rw [List.mem_reverse] at hc
    exact (delim_true c).1 (List.all_eq_true.1 (List.all_takeWhile (l := s.reverse) (p := delim)) c hc)
  · intro c hc
    unfold trimDelims at hc
    rw [List.getLast?_reverse] at hc
    have := List.head?_dropWhile_not delim s.reverse
    rw [hc] at this
    exact (delim_false c).1 (by simpa using this)

/-- What `UpperPath` is to do: the path without a delimiter at its end is the parent, delimiters, and the last part; the
last part is a name (or the protocol alone). -/
structure Upper (p up last : Str) : Prop where
  whole : ∃ q seps, (p = q ∨ p = q ++ lit "/") ∧ q = up ++ seps ++ last ∧ ∀ c ∈ seps, c = 0x2F ∨ c = 0x5C
  name : (∀ c ∈ last, c ≠ 0x2F ∧ c ≠ 0x5C) ∨ (up = [] ∧ ∃ b, last = b ++ lit "://")
  shorter : up.length < p.length

theorem scheme_upper {u b : Str} (h : scheme u = some b) : u = b ++ lit "://" ++ u.drop (protoEnd u) := by
  obtain ⟨r, e, _⟩ := (scheme_some u b).1 h
  have hp : protoEnd u = (b ++ lit "://").length := by simp [protoEnd, h, lit]
  conv => lhs; rw [e]
  rw [hp, e, List.drop_left]

/-- Protocols without a host: what they begin with. -/
def LocalProtocol (b : Str) : Prop :=
  ∃ w ∈ [lit "file", lit "con", lit "res", lit "root", lit "mem", lit "pose", lit "vol", lit "slot", lit "simu", lit "local", lit "sdcard"],
    ieq ((b.dropWhile isSpace).take w.length) w = true

theorem dropWhile_proto (b r : Str) : ((b ++ lit "://" ++ r).dropWhile isSpace) = b.dropWhile isSpace ++ lit "://" ++ r := by
  induction b with
  | nil => simp [lit, isSpace]
  | cons c b ih =>
    simp only [List.cons_append, List.dropWhile_cons]
    split
    · exact ih
    · rfl

theorem upper_colon (c : Nat) (h : upper c = 0x3A) : c = 0x3A := by
  unfold upper at h
  split at h <;> omega

theorem nieq_proto (n : Nat) (b r w w' : Str) (hw : 0x3A ∉ w) (h : w.take n = w') (hl : w'.length = n) : nieq n (b ++ lit "://" ++ r) w = ieq (b.take n) w' := by
  subst h
  unfold nieq
  by_cases hn : n ≤ b.length
  · rw [List.append_assoc, List.take_append_of_le_length hn]
  · have h1 : ieq ((b ++ lit "://" ++ r).take n) (w.take n) = false := by
      rw [Bool.eq_false_iff]
      intro h
      have h2 := eq_of_beq h
      have hm : 0x3A ∈ (b ++ lit "://" ++ r).take n := by
        rw [List.append_assoc, List.take_append]
        obtain ⟨k, hk⟩ : ∃ k, n - b.length = k + 1 := ⟨n - b.length - 1, by omega⟩
        rw [hk]
        simp [lit]
      have hm2 : 0x3A ∈ ((b ++ lit "://" ++ r).take n).map upper := List.mem_map.2 ⟨0x3A, hm, by decide⟩
      rw [h2] at hm2
      obtain ⟨c, hc, hu⟩ := List.mem_map.1 hm2
      rw [upper_colon c hu] at hc
      exact hw (List.mem_of_mem_take hc)
    rw [h1]
    symm
    rw [Bool.eq_false_iff]
    intro h
    have := congrArg List.length (eq_of_beq h)
    simp only [List.length_map, hl] at this
    simp at this
    omega

theorem hasHost_spec (u b : Str) (h : scheme u = some b) : hasHost u = true ↔ ¬ LocalProtocol b := by
  obtain ⟨r, e, _⟩ := (scheme_some u b).1 h
  have hv : u.dropWhile isSpace = b.dropWhile isSpace ++ lit "://" ++ r := by rw [e, dropWhile_proto]
  unfold hasHost LocalProtocol
  simp only [h, hv]
  rw [nieq_proto 4 _ _ (lit "file") (lit "file") (by decide) rfl rfl, nieq_proto 3 _ _ (lit "conf") (lit "con") (by decide) rfl rfl,
    nieq_proto 3 _ _ (lit "res") (lit "res") (by decide) rfl rfl, nieq_proto 4 _ _ (lit "root") (lit "root") (by decide) rfl rfl,
    nieq_proto 3 _ _ (lit "mem") (lit "mem") (by decide) rfl rfl, nieq_proto 4 _ _ (lit "pose") (lit "pose") (by decide) rfl rfl,
    nieq_proto 3 _ _ (lit "vol") (lit "vol") (by decide) rfl rfl, nieq_proto 4 _ _ (lit "slot") (lit "slot") (by decide) rfl rfl,
    nieq_proto 4 _ _ (lit "simu") (lit "simu") (by decide) rfl rfl, nieq_proto 5 _ _ (lit "local") (lit "local") (by decide) rfl rfl,
    nieq_proto 6 _ _ (lit "sdcard") (lit "sdcard") (by decide) rfl rfl]
  have e4 : (lit "file").length = 4 ∧ (lit "con").length = 3 ∧ (lit "res").length = 3 ∧ (lit "root").length = 4 ∧ (lit "mem").length = 3 ∧
    (lit "pose").length = 4 ∧ (lit "vol").length = 3 ∧ (lit "slot").length = 4 ∧ (lit "simu").length = 4 ∧ (lit "local").length = 5 ∧
    (lit "sdcard").length = 6 := by decide
  simp only [Bool.and_eq_true, Bool.not_eq_true', List.mem_cons, List.not_mem_nil, or_false, exists_eq_or_imp, exists_eq_left, e4, not_or,
    Bool.not_eq_true, and_assoc]

/-- A host alone, and its protocol has hosts; `upnp` counts as having none. -/
def HostOnly (p : Str) : Prop :=
  ∃ b h, (p = b ++ lit "://" ++ h ∨ p = b ++ lit "://" ++ h ++ lit "/") ∧ 0x3A ∉ b ∧ (∀ c ∈ h, c ≠ 0x2F ∧ c ≠ 0x5C) ∧
    ¬ LocalProtocol b ∧ ieq (b.dropWhile isSpace) (lit "upnp") = false

theorem ieq_copy (cap : Nat) (x s : Str) (hc : s.length + 1 < cap) : ieq (copy cap x) s = ieq x s := by
  rw [Bool.eq_iff_iff]
  refine ⟨copy_ieq cap x s hc, fun h => ?_⟩
  have hl := congrArg List.length (eq_of_beq h)
  simp at hl
  rw [copy_all _ _ (by omega)]
  exact h

theorem removeDelim_host (p b h : Str) (hp : p = b ++ lit "://" ++ h ∨ p = b ++ lit "://" ++ h ++ lit "/") (hb : 0x3A ∉ b)
    (hh : ∀ c ∈ h, c ≠ 0x2F ∧ c ≠ 0x5C) : removeDelim p = b ++ lit "://" ++ h := by
  have hpe : protoEnd p = (b ++ lit "://").length := by
    have : scheme p = some b := by
      rcases hp with e | e
      · exact (scheme_some p b).2 ⟨h, e, hb⟩
      · exact (scheme_some p b).2 ⟨h ++ lit "/", by rw [e]; simp, hb⟩
    simp [protoEnd, this, lit]
  have h3 : (lit "://").length = 3 := rfl
  unfold removeDelim
  rcases hp with e | e
  · rw [if_neg, e]
    rintro ⟨h1, _, h2⟩
    rw [hpe, e, List.drop_left] at h1
    rw [e, List.getLast?_append, List.getLast?_eq_some_getLast h1] at h2
    simp only [Option.some_or, Option.some.injEq] at h2
    exact (hh _ (h2 ▸ List.getLast_mem h1)).1 rfl
  · rw [if_pos]
    · rw [e]
      have : lit "/" = [0x2F] := rfl
      rw [this, List.dropLast_concat]
    · refine ⟨?_, ?_, ?_⟩
      · rw [hpe, e, List.append_assoc, List.drop_left]; simp [lit]
      · rw [e]; simp [h3]; omega
      · have : lit "/" = [0x2F] := rfl
        rw [e, this, List.getLast?_concat]

/-- C157. `UpperPath` says no for the empty path and for a host alone, and only then. Otherwise it splits the path into parent and last part.
Not for Windows shares. -/
theorem C157_upper_partial (p : Str) (hs : ¬ Share p) :
    ((upperPath p).1 = false ↔ p = [] ∨ HostOnly p) ∧
    ((upperPath p).1 = true → Upper p (upperPath p).2.1 (upperPath p).2.2) := by
  by_cases hp : p = []
  · subst hp
    exact ⟨⟨fun _ => .inl rfl, fun _ => rfl⟩, fun h => by simp [upperPath] at h⟩
  · have hq := removeDelim_ne p hp
    have hcut := removeDelim_cases p
    have hw : p = removeDelim p ∨ p = removeDelim p ++ lit "/" := by
      rcases hcut with h | h
      · exact .inl h.symm
      · exact .inr h.symm
    have hext : ∃ r, p = removeDelim p ++ r := by
      rcases hw with h | h
      · exact ⟨[], by simp [← h]⟩
      · exact ⟨_, h⟩
    have hle : (removeDelim p).length ≤ p.length := by
      obtain ⟨r, e⟩ := hext
      have := congrArg List.length e
      simp only [List.length_append] at this
      omega
    have hsmb := not_smb hs hext
    have hhost : HostOnly p ↔ ((lastIdx delim ((removeDelim p).drop (protoEnd (removeDelim p))) = none) ∧ (hasHost (removeDelim p) && !ieq (protoName 32 (removeDelim p)) (lit "upnp")) = true) := by
      constructor
      · rintro ⟨b, h, h1, h2, h3, h4, h5⟩
        have e := removeDelim_host p b h h1 h2 h3
        have hsc : scheme (removeDelim p) = some b := (scheme_some _ b).2 ⟨h, e, h2⟩
        have hpe : protoEnd (removeDelim p) = (b ++ lit "://").length := by simp [protoEnd, hsc, lit]
        refine ⟨?_, ?_⟩
        · rw [hpe, e, List.drop_left, lastIdx_none]
          exact fun c hc => (delim_false c).2 (h3 c hc)
        · rw [Bool.and_eq_true]
          refine ⟨(hasHost_spec _ b hsc).2 h4, ?_⟩
          rw [protoName, ieq_copy _ _ _ (by decide), hsc]
          simp only [h5, Bool.not_false]
      · rintro ⟨h1, h2⟩
        rw [Bool.and_eq_true] at h2
        cases hsc : scheme (removeDelim p) with
        | none => rw [hasHost_scheme _ hsc] at h2; cases h2.1
        | some b =>
          have e := scheme_upper hsc
          refine ⟨b, (removeDelim p).drop (protoEnd (removeDelim p)), ?_, ?_, ?_, (hasHost_spec _ b hsc).1 h2.1, ?_⟩
          · rw [← e]; exact hw
          · exact ((scheme_some _ b).1 hsc).choose_spec.2
          · intro c hc
            exact (delim_false c).1 ((lastIdx_none _ _).1 h1 c hc)
          · have := h2.2
            rw [protoName, ieq_copy _ _ _ (by decide), hsc] at this
            simpa using this
    unfold upperPath
    rw [if_neg hp]
    simp only
    cases hl : lastIdx delim ((removeDelim p).drop (protoEnd (removeDelim p))) with
    | none =>
      rw [hl] at hhost
      simp only [hsmb, Bool.false_eq_true, if_false]
      by_cases hc : (hasHost (removeDelim p) && !ieq (protoName 32 (removeDelim p)) (lit "upnp")) = true
      · rw [if_pos hc]
        refine ⟨⟨fun _ => .inr (hhost.2 ⟨rfl, hc⟩), fun _ => rfl⟩, fun h => (by cases h)⟩
      · rw [if_neg hc]
        have hno : ¬ HostOnly p := fun h => hc (hhost.1 h).2
        by_cases hd : (removeDelim p).drop (protoEnd (removeDelim p)) = []
        · rw [if_pos hd]
          refine ⟨⟨fun h => (by cases h), fun h => (by rcases h with h | h; exact absurd h hp; exact absurd h hno)⟩, fun _ => ?_⟩
          refine ⟨⟨removeDelim p, [], hw, by simp, by simp⟩, .inr ⟨rfl, ?_⟩, List.length_pos_iff.2 hp⟩
          have h1 := List.take_append_drop (protoEnd (removeDelim p)) (removeDelim p)
          rw [hd, List.append_nil] at h1
          rcases take_protoEnd (removeDelim p) with h2 | ⟨b, h2, _⟩
          · rw [h1] at h2; exact absurd h2 hq
          · exact ⟨b, by rw [← h2, h1]⟩
        · rw [if_neg hd]
          refine ⟨⟨fun h => (by cases h), fun h => (by rcases h with h | h; exact absurd h hp; exact absurd h hno)⟩, fun _ => ?_⟩
          refine ⟨⟨removeDelim p, [], hw, by simp, by simp⟩, .inl ?_, ?_⟩
          · intro c hc
            exact (delim_false c).1 ((lastIdx_none _ _).1 hl c hc)
          · have := List.length_pos_iff.2 hd
            simp only [List.length_drop, List.length_take] at this ⊢
            omega
    | some i =>
      have hno : ¬ HostOnly p := fun h => by have := (hhost.1 h).1; rw [hl] at this; cases this
      refine ⟨⟨fun h => (by cases h), fun h => (by rcases h with h | h; exact absurd h hp; exact absurd h hno)⟩, fun _ => ?_⟩
      obtain ⟨a, c, bb, e, hi, hc, hbb⟩ := lastIdx_some _ _ _ hl
      have htk : ((removeDelim p).drop (protoEnd (removeDelim p))).take (i + 1) = a ++ [c] := by
        rw [e, ← hi]
        have e2 : a ++ c :: bb = (a ++ [c]) ++ bb := by simp
        have : (a ++ [c]).length = a.length + 1 := by simp
        rw [e2, ← this, List.take_left]
      have hdr : (removeDelim p).drop (protoEnd (removeDelim p) + i + 1) = bb := by
        rw [Nat.add_assoc, ← List.drop_drop, e, ← hi]
        have e2 : a ++ c :: bb = (a ++ [c]) ++ bb := by simp
        have : (a ++ [c]).length = a.length + 1 := by simp
        rw [e2, ← this, List.drop_left]
      simp only [htk, hdr]
      obtain ⟨seps, s1, s2, s3⟩ := trimDelims_spec (a ++ [c])
      have hwhole : removeDelim p = (removeDelim p).take (protoEnd (removeDelim p)) ++ trimDelims (a ++ [c]) ++ seps ++ bb := by
        conv => lhs; rw [← List.take_append_drop (protoEnd (removeDelim p)) (removeDelim p), e]
        have e2 : a ++ c :: bb = (a ++ [c]) ++ bb := by simp
        rw [e2, s1]
        conv => rhs; rw [← s1]
        simp only [List.append_assoc]
      refine ⟨⟨removeDelim p, seps, hw, hwhole, s2⟩, .inl ?_, ?_⟩
      · intro x hx; exact (delim_false x).1 (hbb x hx)
      · have hne : seps ≠ [] := by
          intro h
          rw [h, List.append_nil] at s1
          have := s3 c (by rw [← s1]; simp)
          rw [(delim_false c).2 this] at hc
          cases hc
        have h1 := congrArg List.length hwhole
        have := List.length_pos_iff.2 hne
        simp only [List.length_append] at h1 ⊢
        omega

theorem upper_prefix {p up last : Str} (h : Upper p up last) : ∃ r, p = up ++ r := by
  obtain ⟨q, seps, h1, h2, _⟩ := h.whole
  rcases h1 with e | e
  · exact ⟨seps ++ last, by rw [e, h2]; simp⟩
  · exact ⟨seps ++ last ++ lit "/", by rw [e, h2]; simp⟩

/-- C157. Going up ends: a path of `n` characters has no more than `n` steps. Not for Windows shares. -/
theorem C157_climb_ends_partial (p : Str) (hs : ¬ Share p) (steps : Nat → Str) (h0 : steps 0 = p) (n : Nat)
    (hup : ∀ i < n, (upperPath (steps i)).1 = true ∧ steps (i + 1) = (upperPath (steps i)).2.1) : n ≤ p.length := by
  have key : ∀ i ≤ n, (∃ r, p = steps i ++ r) ∧ (steps i).length + i ≤ p.length := by
    intro i
    induction i with
    | zero => intro _; rw [h0]; exact ⟨⟨[], by simp⟩, by omega⟩
    | succ i ih =>
      intro hi
      obtain ⟨⟨r, hr⟩, hl⟩ := ih (by omega)
      obtain ⟨h1, h2⟩ := hup i (by omega)
      have hsi : ¬ Share (steps i) := by
        rintro ⟨b, r', e, hb, hi⟩
        exact hs ⟨b, r' ++ r, by rw [hr, e]; simp, hb, hi⟩
      have hU := (C157_upper_partial (steps i) hsi).2 h1
      rw [h2]
      obtain ⟨r2, hr2⟩ := upper_prefix hU
      refine ⟨⟨r2 ++ r, ?_⟩, ?_⟩
      · conv => lhs; rw [hr, hr2]
        simp
      · have := hU.shorter
        omega
  have := (key n (Nat.le_refl n)).2
  omega

/-- C157 as hoped for: going up ends. -/
def ClimbEnds : Prop :=
  ∀ (steps : Nat → Str), ∃ n, ¬ ((upperPath (steps n)).1 = true ∧ steps (n + 1) = (upperPath (steps n)).2.1)

/-- C157 fails for Windows shares: from `smb://host` the way up is `smb://`, with that as last part, not `host`, and from there
it is `smb://` for ever. -/
theorem C157_share_counterexample : ¬ ClimbEnds ∧ upperPath (lit "smb://host") = (true, lit "smb://", lit "smb://") := by
  have h1 : upperPath (lit "smb://") = (true, lit "smb://", lit "smb://") := by decide +kernel
  refine ⟨fun h => ?_, by decide +kernel⟩
  obtain ⟨n, hn⟩ := h fun _ => lit "smb://"
  exact hn (by rw [h1]; exact ⟨rfl, rfl⟩)

example : upperPath (lit "http://host/dir//file/") = (true, lit "http://host/dir", lit "file") ∧
    upperPath (lit "http://host/") = (false, lit "http://host", []) ∧
    upperPath (lit "file://a") = (true, lit "file://", lit "a") ∧ upperPath (lit "file://") = (true, [], lit "file://") ∧
    upperPath (lit "/a") = (true, [], lit "a") ∧ ¬ Share (lit "http://host/dir//file/") := by
  refine ⟨by decide +kernel, by decide +kernel, by decide +kernel, by decide +kernel, by decide +kernel, ?_⟩
  rintro ⟨b, r, e, hb, hi⟩
  have h1 : scheme (lit "http://host/dir//file/") = some b := (scheme_some _ b).2 ⟨r, e, hb⟩
  have h2 : scheme (lit "http://host/dir//file/") = some (lit "http") := by decide +kernel
  rw [h2] at h1
  cases h1
  revert hi; decide +kernel

/-! ### C158 -/

/-- A list of extensions and types, as `mkv:V;mka:A`. -/
def typeList : List (Str × Nat) → Str
  | [] => []
  | [(e, t)] => e ++ [0x3A, t]
  | (e, t) :: es => e ++ [0x3A, t, 0x3B] ++ typeList es

/-- The type of the first entry with that extension. -/
def typeOf (ext : Str) (es : List (Str × Nat)) : Nat := ((es.find? fun p => ieq ext p.1).map (·.2)).getD 0

/-- Entries without the characters between them. -/
def Entries (es : List (Str × Nat)) : Prop := ∀ p ∈ es, 0x3A ∉ p.1 ∧ 0x3B ∉ p.1 ∧ p.2 ≠ 0x3B

theorem skip_semi (b r : Str) (h : 0x3B ∉ b) : (b ++ 0x3B :: r).dropWhile (· != 0x3B) = 0x3B :: r := by
  induction b with
  | nil => simp
  | cons c b ih =>
    simp only [List.mem_cons, not_or] at h
    have : (c != 0x3B) = true := by simpa using fun e => h.1 e.symm
    simp [this, ih h.2]

theorem skip_none (b : Str) (h : 0x3B ∉ b) : b.dropWhile (· != 0x3B) = [] := by
  induction b with
  | nil => simp
  | cons c b ih =>
    simp only [List.mem_cons, not_or] at h
    have : (c != 0x3B) = true := by simpa using fun e => h.1 e.symm
    simp [this, ih h.2]

theorem extLoop_entry (ext e : Str) (t : Nat) (rest : Str) (fuel : Nat) (he : 0x3A ∉ e) :
    extLoop ext (fuel + 1) (e ++ 0x3A :: t :: rest) = if ieq ext e then t else
      match (e ++ 0x3A :: t :: rest).dropWhile (· != 0x3B) with
      | [] => 0
      | _ :: r => extLoop ext fuel r := by
  have h1 : (decide ((e ++ 0x3A :: t :: rest).drop e.length ≠ []) && ext.length == e.length && nieq e.length ext (e ++ 0x3A :: t :: rest)) = ieq ext e := by
    rw [List.drop_left]
    by_cases hl : ext.length = e.length
    · simp [hl, nieq]
      rw [← hl, List.take_length]
    · have : ieq ext e = false := by
        rw [Bool.eq_false_iff]
        intro h
        have := congrArg List.length (eq_of_beq h)
        simp at this
        exact hl this
      simp [hl, this]
  simp only [extLoop, takeWhile_colon e _ he]
  rw [h1, List.drop_left]
  rfl

theorem extLoop_spec (ext : Str) (es : List (Str × Nat)) (h : Entries es) (fuel : Nat) (hf : es.length < fuel) :
    extLoop ext fuel (typeList es) = typeOf ext es := by
  induction es generalizing fuel with
  | nil =>
    obtain ⟨g, rfl⟩ : ∃ g, fuel = g + 1 := ⟨fuel - 1, by simp at hf; omega⟩
    simp [extLoop, typeList, typeOf]
  | cons p es ih =>
    obtain ⟨e, t⟩ := p
    obtain ⟨g, rfl⟩ : ∃ g, fuel = g + 1 := ⟨fuel - 1, by simp at hf; omega⟩
    obtain ⟨h1, h2, h3⟩ := h (e, t) (by simp)
    simp only at h1 h2 h3
    cases es with
    | nil =>
      have : typeList [(e, t)] = e ++ 0x3A :: t :: [] := rfl
      rw [this, extLoop_entry _ _ _ _ _ h1, skip_none]
      · simp only [typeOf, List.find?_cons]
        by_cases hi : ieq ext e = true
        · simp [hi]
        · simp [hi]
      · simp only [List.mem_append, List.mem_cons, List.not_mem_nil, or_false, not_or]
        exact ⟨h2, by decide, fun x => h3 x.symm⟩
    | cons q es =>
      have : typeList ((e, t) :: q :: es) = e ++ 0x3A :: t :: (0x3B :: typeList (q :: es)) := by simp [typeList]
      rw [this, extLoop_entry _ _ _ _ _ h1]
      have e2 : e ++ 0x3A :: t :: 0x3B :: typeList (q :: es) = (e ++ [0x3A, t]) ++ 0x3B :: typeList (q :: es) := by simp
      rw [e2, skip_semi]
      · have ih' := ih (fun p hp => h p (by simp [hp])) g (by simp at hf ⊢; omega)
        simp only
        rw [ih']
        simp only [typeOf, List.find?_cons (a := (e, t))]
        by_cases hi : ieq ext e = true
        · simp [hi]
        · simp [hi]
      · simp only [List.mem_append, List.mem_cons, List.not_mem_nil, or_false, not_or]
        exact ⟨h2, by decide, fun x => h3 x.symm⟩

theorem typeList_length (es : List (Str × Nat)) : es.length ≤ (typeList es).length := by
  induction es with
  | nil => simp
  | cons p es ih =>
    obtain ⟨e, t⟩ := p
    cases es with
    | nil => simp [typeList]
    | cons q es => simp [typeList] at ih ⊢; omega

/-- C158. The type of a file is that of the first entry with its extension, where case does not matter, or none: for
names with and without directory, and with or without a query behind the extension if it has no dot or delimiter. -/
theorem C158_type_of_file_partial (maxPath : Nat) (h6 : 6 ≤ maxPath) (d name ext query : Str) (es : List (Str × Nat)) (hes : Entries es)
    (hd : d = [] ∨ ∃ d', d = d' ++ lit "/") (hc : 0x3A ∉ d ++ name ++ ext ++ query) (hn : ∀ c ∈ name, c ≠ 0x2F ∧ c ≠ 0x5C)
    (he : ext ≠ [] ∧ ∀ c ∈ ext, c ≠ 0x2F ∧ c ≠ 0x5C ∧ c ≠ 0x2E ∧ c ≠ 0x3F)
    (hq : query = [] ∨ (query.head? = some 0x3F ∧ ∀ c ∈ query, c ≠ 0x2F ∧ c ≠ 0x5C ∧ c ≠ 0x2E))
    (hl : ext.length + query.length < maxPath) :
    checkExts maxPath (d ++ name ++ lit "." ++ ext ++ query) (typeList es) = .ok (typeOf ext es) := by
  have hs : scheme (d ++ name ++ lit "." ++ ext ++ query) = none := scheme_none _ (by
    simp only [List.mem_append, not_or] at hc ⊢
    exact ⟨⟨⟨⟨hc.1.1.1, hc.1.1.2⟩, by decide⟩, hc.1.2⟩, hc.2⟩)
  have hquery : ∀ c ∈ query, c ≠ 0x2F ∧ c ≠ 0x5C ∧ c ≠ 0x2E := by
    rcases hq with rfl | h
    · simp
    · exact h.2
  have hfile : ∀ c ∈ name ++ lit "." ++ ext ++ query, delim c = false := by
    intro c hc
    rw [delim_false]
    simp only [List.mem_append] at hc
    rcases hc with ((h | h) | h) | h
    · exact hn c h
    · revert c; decide
    · exact ⟨(he.2 c h).1, (he.2 c h).2.1⟩
    · exact ⟨(hquery c h).1, (hquery c h).2.1⟩
  have hdir : (splitDir (d ++ name ++ lit "." ++ ext ++ query)).2 = name ++ lit "." ++ ext ++ query := by
    simp only [splitDir, (protoEnd_zero _).2 hs, List.drop_zero, Nat.zero_add, hasHost_scheme _ hs]
    rcases hd with rfl | ⟨d', rfl⟩
    · rw [List.nil_append, (lastIdx_none _ _).2 hfile]
      simp
    · have e : d' ++ lit "/" ++ name ++ lit "." ++ ext ++ query = d' ++ 0x2F :: (name ++ lit "." ++ ext ++ query) := by simp [lit]
      rw [e, lastIdx_at delim d' 0x2F _ rfl hfile]
      simp
  have hcut : cutFragment maxPath (d ++ name ++ lit "." ++ ext ++ query) (name ++ lit "." ++ ext ++ query) = .ok (name ++ lit "." ++ ext ++ query) := by
    unfold cutFragment protoName
    rw [hs, if_neg]
    intro h
    rw [Bool.and_eq_true] at h
    have := copy_ieq maxPath _ (lit "http") (by simp [lit]; omega) h.1
    revert this; decide
  have hname : (splitName (name ++ lit "." ++ ext ++ query)).2 = ext ++ query := by
    have e : name ++ lit "." ++ ext ++ query = name ++ 0x2E :: (ext ++ query) := by simp [lit]
    unfold splitName
    rw [e, lastIdx_at (· == 0x2E) name 0x2E _ rfl]
    · have hdrop : (name ++ 0x2E :: (ext ++ query)).drop (name.length + 1) = ext ++ query := by
        have e2 : name ++ 0x2E :: (ext ++ query) = (name ++ [0x2E]) ++ (ext ++ query) := by simp
        have : (name ++ [0x2E]).length = name.length + 1 := by simp
        rw [e2, ← this, List.drop_left]
      simp only [hdrop]
      rw [if_neg]
      intro h
      exact he.1 (List.append_eq_nil_iff.1 h).1
    · intro x hx
      rcases List.mem_append.1 hx with h | h
      · simpa using (he.2 x h).2.2.1
      · simpa using (hquery x h).2.2
  simp only [checkExts, splitPath, hdir, hcut, Out.bind, hname]
  rw [copy_all _ _ (by simp; omega)]
  have htw : (ext ++ query).takeWhile (· != 0x3F) = ext := by
    rw [List.takeWhile_append_of_pos (by
      intro c hc
      simpa using (he.2 c hc).2.2.2)]
    rcases hq with rfl | h
    · simp
    · cases query with
      | nil => simp
      | cons c q =>
        have : c = 0x3F := by simpa using h.1
        subst this
        simp
  rw [htw, extLoop_spec _ _ hes _ (by have := typeList_length es; omega)]

/-- C158 as hoped for: the query behind the name does not count. -/
def QueryIgnored : Prop :=
  ∀ (maxPath : Nat) (u q exts : Str), u.length + q.length < maxPath → 0x3F ∉ u → checkExts maxPath (u ++ lit "?" ++ q) exts = checkExts maxPath u exts

/-- C158 fails for queries with a dot or a slash: the extension is looked for in the query. -/
theorem C158_query_counterexample : ¬ QueryIgnored ∧ checkExts 100 (lit "http://h/a.mkv?t=1.5") (lit "mkv:V") = .ok 0 := by
  have h1 : checkExts 100 (lit "http://h/a.mkv?t=1.5") (lit "mkv:V") = .ok 0 := by decide +kernel
  refine ⟨fun h => ?_, h1⟩
  have h2 := h 100 (lit "http://h/a.mkv") (lit "t=1.5") (lit "mkv:V") (by decide +kernel) (by decide +kernel)
  have e : lit "http://h/a.mkv" ++ lit "?" ++ lit "t=1.5" = lit "http://h/a.mkv?t=1.5" := by decide +kernel
  rw [e, h1] at h2
  revert h2; decide +kernel

example : checkExts 100 (lit "/d/a.b.MKA?x") (lit "mkv:V;mka:A") = .ok 0x41 ∧ Entries [(lit "mkv", 0x56), (lit "mka", 0x41)] ∧
    typeList [(lit "mkv", 0x56), (lit "mka", 0x41)] = lit "mkv:V;mka:A" := by
  refine ⟨by decide +kernel, ?_, by decide +kernel⟩
  intro p hp
  simp only [List.mem_cons, List.not_mem_nil, or_false] at hp
  rcases hp with rfl | rfl <;> refine ⟨by decide +kernel, by decide +kernel, by decide⟩

end Verif.Url
