import Verif.Mkclean.AppName
/-!
Property theorem C189: the names of the applications in files mkclean writes.
-/
namespace Verif.AppName
open Verif Verif.Mkv Verif.Url

/-- What stands in front of the former names. -/
def front (o : Opts) : Str := if o.regression then lit "mkclean regression" else o.program ++ letters o

/-- The names of the source as they are told: one, or two joined with a plus. -/
def told (mux app : Str) : Str :=
  if app.map upper = mux.map upper then mux else if mux = [] then app else mux ++ lit " + " ++ app

/-- `s` begins with `mkclean ` in letters of any case. -/
def OfMkclean (s : Str) : Prop := (s.take 8).map upper = lit "MKCLEAN "

instance (s : Str) : Decidable (OfMkclean s) := inferInstanceAs (Decidable (_ = _))

/-- The names told, behind ` from `. -/
def fromNames (s : Str) : Str := if s = [] then [] else lit " from " ++ s

/-- `k` times the same. -/
def times : Nat → Str → Str
  | 0, _ => []
  | k + 1, s => s ++ times k s

theorem take_front (n : Nat) (a b : Str) : (a.take n ++ b).take n = (a ++ b).take n := by
  by_cases h : a.length ≤ n
  · rw [List.take_of_length_le h]
  · rw [List.take_append_of_le_length (by rw [List.length_take]; omega), List.take_append_of_le_length (by omega), List.take_take,
      Nat.min_self]

theorem cat_eq (out s : Str) (h : out.length < cap) : cat cap out s = (out ++ s).take (cap - 1) := by
  unfold cat copy
  rw [if_pos h, List.take_append]
  rw [List.take_of_length_le (l := out) (by omega)]
  congr 2
  omega

theorem take_len (s : Str) : (s.take (cap - 1)).length < cap := by
  simp only [List.length_take, cap]
  omega

theorem original_eq (mux app : Str) :
    original mux app = (told (mux.take 1023) (app.take 1023)).take 1023 := by
  have hm : (mux.take 1023).length < cap := take_len mux
  unfold original told
  simp only [copy, ieq, beq_iff_eq, show cap - 1 = 1023 from rfl]
  by_cases h : (app.take 1023).map upper = (mux.take 1023).map upper
  · simp only [h, if_true, List.take_take, Nat.min_self]
  · simp only [h, if_false]
    by_cases h0 : mux.take 1023 = []
    · simp only [h0, if_true, ne_eq, not_true, if_false]
      rw [cat_eq _ _ (by simp [cap])]
      rfl
    · simp only [ne_eq, h0, not_false_eq_true, if_true, if_false]
      rw [cat_eq _ _ hm]
      rw [cat_eq _ _ (take_len _), take_front]
      rfl

theorem nieq_iff (s : Str) : nieq 8 s (lit "mkclean ") = true ↔ OfMkclean s := by
  unfold nieq ieq OfMkclean
  rw [beq_iff_eq, show ((lit "mkclean ").take 8).map upper = lit "MKCLEAN " by decide]

theorem ofMkclean_take (n : Nat) (h : 8 ≤ n) (s : Str) : OfMkclean (s.take n) ↔ OfMkclean s := by
  unfold OfMkclean
  rw [List.take_take, Nat.min_eq_left h]

theorem front_eq (o : Opts) (s : Str) :
    (if o.regression then copy cap (lit "mkclean regression" ++ (if s ≠ [] then lit " from " ++ s else []))
    else cat cap (cat cap (copy cap o.program) (letters o)) (if s ≠ [] then lit " from " ++ s else [])) =
      (front o ++ fromNames s).take 1023 := by
  unfold front fromNames
  have hs : (if s ≠ [] then lit " from " ++ s else []) = if s = [] then [] else lit " from " ++ s := by
    by_cases h : s = [] <;> simp [h]
  rw [hs]
  cases o.regression
  · simp only [Bool.false_eq_true, if_false]
    unfold copy
    rw [cat_eq _ _ (take_len _), take_front, cat_eq _ _ (take_len _), take_front]
    rfl
  · simp only [if_true]
    rfl

/-- C189, what the new WritingApp is. The two names of the source (their first 1023 characters) are told as one if they are equal up to
case, otherwise joined with a plus, and put behind the name of the program and the letters of the options. If they begin with `mkclean `
14 characters are skipped, which are outside the text if it is shorter: only then something else than the names gets into the file. -/
theorem C189_writing_app_partial (o : Opts) (mux app : Str) :
    newWriting o mux app =
      if OfMkclean (told (mux.take 1023) (app.take 1023)) then
        if (told (mux.take 1023) (app.take 1023)).length < 14 then .bad
        else .ok ((front o ++ fromNames (((told (mux.take 1023) (app.take 1023)).take 1023).drop 14)).take 1023)
      else .ok ((front o ++ fromNames ((told (mux.take 1023) (app.take 1023)).take 1023)).take 1023) := by
  have hif : ∀ (b : Prop) [Decidable b] (x y : Str), (if b then Out.ok x else Out.ok y) = Out.ok (if b then x else y) := by
    intro b _ x y; split <;> rfl
  unfold newWriting former
  rw [original_eq]
  simp only [nieq_iff, hif, front_eq, ofMkclean_take 1023 (by omega)]
  by_cases h : OfMkclean (told (mux.take 1023) (app.take 1023))
  · simp only [h, if_true]
    by_cases hl : 14 ≤ ((told (mux.take 1023) (app.take 1023)).take 1023).length
    · rw [if_pos hl, if_neg (by rw [List.length_take] at hl; omega)]
      rfl
    · rw [if_neg hl, if_pos (by rw [List.length_take] at hl; omega)]
      rfl
  · simp only [h, if_false]
    rfl

/-- What every cleaning puts in front of the WritingApp. -/
def added (o : Opts) : Str := front o ++ lit " from " ++ newMuxing o ++ lit " + "

theorem ofMkclean_append (a b : Str) (h : 8 ≤ a.length) : OfMkclean (a ++ b) ↔ OfMkclean a := by
  unfold OfMkclean
  rw [List.take_append_of_le_length h]

theorem ofMkclean_congr {a b : Str} (h : a.map upper = b.map upper) : OfMkclean a ↔ OfMkclean b := by
  unfold OfMkclean
  rw [List.map_take, List.map_take, h]

theorem ofMkclean_len {a : Str} (h : OfMkclean a) : 8 ≤ a.length := by
  have := congrArg List.length h
  rw [List.length_map, List.length_take, show (lit "MKCLEAN ").length = 8 by decide] at this
  omega

/-- A file mkclean wrote: cleaning it again puts a text in front of the WritingApp, which is then cut to 1023 characters. -/
theorem again (o : Opts) (app : Str) (hl8 : 8 ≤ (newMuxing o).length) (hl : ¬ OfMkclean (newMuxing o))
    (hs : (newMuxing o).length + 3 ≤ 1023) (ha : OfMkclean app) (hal : app.length ≤ 1023) :
    newWriting o (newMuxing o) app = .ok ((added o ++ app).take 1023) := by
  have h8 := ofMkclean_len ha
  rw [C189_writing_app_partial]
  rw [List.take_of_length_le (l := newMuxing o) (by omega), List.take_of_length_le (l := app) hal]
  have h1 : told (newMuxing o) app = newMuxing o ++ lit " + " ++ app := by
    unfold told
    rw [if_neg (fun h => hl ((ofMkclean_congr h).1 ha)), if_neg (fun h => by rw [h] at hl8; simp at hl8)]
  rw [h1, if_neg (by
    rw [List.append_assoc, ofMkclean_append _ _ hl8]; exact hl)]
  congr 1
  unfold fromNames added
  rw [if_neg (by
    intro h
    have := congrArg List.length h
    simp only [List.length_take, List.length_append, List.length_nil] at this
    omega)]
  rw [← List.append_assoc]
  have hlen : ∀ x y : Str, ∀ n, (x ++ y.take n).take n = (x ++ y).take n := by
    intro x y n
    rw [List.take_append, List.take_append, List.take_take]
    congr 2
    omega
  rw [hlen]
  simp only [List.append_assoc]

/-- C189, a file that is cleaned again and again: the names do not settle. Every cleaning puts the name of the program, the letters and
the libraries once more in front of the WritingApp, until 1023 characters are full and the names the file first had drop out. -/
theorem C189_grows (o : Opts) (k : Nat) (app : Str) (hf : OfMkclean (front o)) (hl8 : 8 ≤ (newMuxing o).length)
    (hl : ¬ OfMkclean (newMuxing o)) (hs : (newMuxing o).length + 3 ≤ 1023) (ha : OfMkclean app) (hal : app.length ≤ 1023) :
    cleanings o k (newMuxing o, app) = .ok (newMuxing o, (times k (added o) ++ app).take 1023) := by
  induction k generalizing app with
  | zero =>
    show Out.ok _ = _
    rw [show times 0 (added o) ++ app = app from rfl, List.take_of_length_le hal]
  | succ k ih =>
    have h8 := ofMkclean_len hf
    have hn : OfMkclean ((added o ++ app).take 1023) := by
      rw [ofMkclean_take _ (by omega)]
      unfold added
      simp only [List.append_assoc]
      rw [ofMkclean_append _ _ h8]; exact hf
    have e : cleanings o (k + 1) (newMuxing o, app) = cleanings o k (newMuxing o, (added o ++ app).take 1023) := by
      show (Out.bind (Out.bind (newWriting o (newMuxing o) app) _) _) = _
      rw [again o app hl8 hl hs ha hal]
      rfl
    rw [e, ih _ hn (by rw [List.length_take]; omega)]
    congr 2
    have hcomm : ∀ k, times k (added o) ++ added o = added o ++ times k (added o) := by
      intro k
      induction k with
      | zero => simp [times]
      | succ k ih => simp only [times, List.append_assoc, ih]
    have hlen : ∀ x y : Str, ∀ n, (x ++ y.take n).take n = (x ++ y).take n := by
      intro x y n
      rw [List.take_append, List.take_append, List.take_take]
      congr 2
      omega
    rw [hlen, ← List.append_assoc, hcomm]
    rfl

/-- The names of a file that was cleaned once. -/
def exNames (o : Opts) : Str × Str := (newMuxing o, lit "mkclean 0.9.0 ro from Lavf58.29.100")

example : newWriting { remux := true, optimize := true } (lit "Lavf58.29.100") (lit "LAVF58.29.100") =
    .ok (lit "mkclean 0.9.0 ro from Lavf58.29.100") := by decide +kernel

example : newWriting { regression := true } (lit "libebml v1.3") (lit "mkvmerge v9") =
    .ok (lit "mkclean regression from libebml v1.3 + mkvmerge v9") := by decide +kernel

example : newWriting {} (lit "mkclean 0.8.10 from x") (lit "x") = .ok (lit "mkclean 0.9.0 from  from x + x") := by decide +kernel

example : OfMkclean (front {}) ∧ 8 ≤ (newMuxing {}).length ∧ ¬ OfMkclean (newMuxing {}) ∧ (newMuxing {}).length + 3 ≤ 1023 ∧
    OfMkclean (exNames {}).2 ∧ (exNames {}).2.length ≤ 1023 := by decide +kernel

/-- C189, the counterexamples: a file mkclean wrote is not the same after the same cleaning again, and for a file of `mkclean 1.0`
(which tells one name) memory outside the text gets into the file. -/
theorem C189_counterexample :
    (∃ o n, clean o n = .ok (newMuxing o, lit "mkclean 0.9.0 from libebml2 v0.21.3 + libmatroska2 v0.22.3 + mkclean 0.9.0 from A + B") ∧
      n = (newMuxing o, lit "mkclean 0.9.0 from A + B") ∧ clean o (lit "A", lit "B") = .ok n) ∧
    newWriting {} (lit "mkclean 1.0") (lit "mkclean 1.0") = .bad := by
  refine ⟨⟨{}, _, ?_, rfl, ?_⟩, ?_⟩ <;> decide +kernel

/-- C189. Each option has a letter of its own, behind one space: `r` for `--remux`, `o` for `--optimize`, `l` for `--live`, `u` for
`--no-optimize`, `3` for `--alt-3d`. -/
theorem C189_letters (o : Opts) (h : o.regression = false) : front o = o.program ++
    (let l := ([(o.remux, 'r'), (o.optimize, 'o'), (o.live, 'l'), (o.unOptimize, 'u'), (o.alt3d, '3')].filter (·.1)).map (·.2.toNat)
     if l = [] then [] else 32 :: l) := by
  obtain ⟨r, op, l, u, a, g, p, b⟩ := o
  have hg : g = false := h
  subst hg
  unfold front
  congr 1
  unfold letters
  cases r <;> cases op <;> cases l <;> cases u <;> cases a <;> rfl

/-- C189. The MuxingApp is the names of the libraries. -/
theorem C189_muxing_app (o : Opts) (h : o.regression = false) (hl : o.libs.length ≤ 1023) : newMuxing o = o.libs := by
  unfold newMuxing copy
  rw [h, if_neg (by simp), show cap - 1 = 1023 from rfl, List.take_of_length_le hl]

example : front { live := true, remux := true } = lit "mkclean 0.9.0 rl" := by decide +kernel
example : ({} : Opts).libs.length ≤ 1023 := by decide +kernel

end Verif.AppName
