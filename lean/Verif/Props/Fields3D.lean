import Verif.Mkclean.Fields3D
import Verif.Mkclean.TracksLemmas
import Verif.Props.Life
/-!
C214, C215: what comes of the fields `mkclean --alt-3d` puts together.
-/
namespace Verif.Props.Fields3D
open Verif Verif.Ebml Verif.Mkv Verif.Mkclean.Fields3D

/-- A block as it comes from the file: a SimpleBlock with a time, of one frame, not read, its track without encoding. -/
structure Field (x : FBlk) : Prop where
  simple : x.simple = true
  timed : x.b.timed = true
  auto : x.auto = false
  unread : x.b.valueSet = false
  track : x.b.readTrack = some (.enc .plain)
  sizesIn : x.b.sizesIn = []
  one : ∃ n, x.b.sizes = [n] ∧ n < 2 ^ 31

/-- The frames of a block in the file: cut out at its place by its sizes. -/
def framesOf (file : Bytes) (x : FBlk) : List Bytes := cutFrames x.b.sizes (file.drop x.loc)

/-- The frames in a block that was read. -/
def framesIn (x : FBlk) : List Bytes := cutFrames x.b.sizes x.b.data

theorem s32_small {n : Nat} (h : n < 2 ^ 31) : s32 n = n := by
  unfold s32
  simp only [Nat.reducePow] at *
  omega

/-- A block that was merged: it was released with automatic lacing and has the sizes of both. -/
structure Merged (p c x : FBlk) : Prop where
  auto : x.auto = true
  unread : x.b.valueSet = false
  track : x.b.readTrack = p.b.readTrack
  sizes : x.b.sizes = p.b.sizes ++ c.b.sizes
  loc : x.loc = p.loc

theorem readF_field {file : Bytes} {x y : FBlk} (hx : Field x) (h : readF file x = .ok y) :
    ∃ n, x.b.sizes = [n] ∧ x.loc + n ≤ max file.length x.loc ∧
      y = { x with b := { x.b with data := (file.drop x.loc).take n, valueSet := true } } := by
  obtain ⟨n, hn, hlt⟩ := hx.one
  refine ⟨n, hn, ?_⟩
  have hb : bufSize [n] = n := by simp [bufSize, s32_small hlt]
  simp only [readF, hx.auto, hx.unread, hx.track, readFrames, hn, readPlain, hb, Bool.false_eq_true, if_false] at h
  rw [if_neg (by omega)] at h
  by_cases hl : (((file.drop x.loc).take (n : Int).toNat).length : Int) < n
  · rw [if_pos hl] at h; simp [Out.bind] at h
  · rw [if_neg hl] at h
    simp only [Out.bind, Out.ok.injEq] at h
    simp only [Int.toNat_natCast, List.length_take, List.length_drop] at hl
    refine ⟨by omega, ?_⟩
    rw [← h]; simp [hn, hx.track, hx.auto]

theorem merge_field {file : Bytes} {p c x : FBlk} (hp : Field p) (hc : Field c) (h : merge file p c = .ok x) : Merged p c x := by
  unfold merge at h
  split at h
  · rename_i p' hp'
    split at h
    · rename_i c' hc'
      obtain ⟨n, hn, hl, rfl⟩ := readF_field hp hp'
      obtain ⟨m, hm, hl', rfl⟩ := readF_field hc hc'
      simp only [firstFrame, hc.simple, hm, Bool.true_eq_false, if_false] at h
      split at h
      · simp [Out.bind] at h
      · rename_i hd
        simp only [Out.bind, releaseF, release, hc.timed, hc.sizesIn, append, hp.timed, hp.sizesIn, Bool.not_true, Bool.and_false,
          Bool.false_eq_true, if_false, if_true, Out.ok.injEq] at h
        simp only [not_or, Nat.not_lt] at hd
        subst h
        refine ⟨rfl, rfl, rfl, ?_, rfl⟩
        simp only [hn, hm, List.cons_append, List.nil_append, List.cons.injEq, and_true, true_and, List.length_take]
        simp only [List.length_take] at hd
        simp only [List.length_drop] at *
        omega
    all_goals simp at h
  all_goals simp at h

/-- **C214 (refused)**: a block two fields were merged into cannot be read any more: unless the sizes were computed before, nothing of it
is written. Reading it reports an error. -/
theorem C214_refused {file : Bytes} {p c x : FBlk} (hp : Field p) (hc : Field c) (h : merge file p c = .ok x) :
    written file false x = none ∧ readF file x = .err := by
  have m := merge_field hp hc h
  have ht := m.track.trans hp.track
  simp [written, readF, m.auto, m.unread, ht]

theorem fields_even {file : Bytes} (bs : List FBlk) : (∀ x ∈ bs, Field x) → ∀ {out r : List FBlk},
    (∀ x ∈ out, x.b.sizes.length ≥ 2) → fields file out bs = .ok r →
    (∃ k : List FBlk, r = k ++ out ∧ k.length = bs.length / 2 + bs.length % 2 ∧
      (∀ x ∈ k.drop (bs.length % 2), ∃ p ∈ bs, ∃ c ∈ bs, Merged p c x) ∧
      (bs.length % 2 = 1 → k.head? = bs.getLast?)) := by
  induction hlen : bs.length using Nat.strongRecOn generalizing bs with
  | _ n ih =>
  intro hf out r ho h
  match bs, hlen with
  | [], hlen =>
    subst hlen
    simp only [fields, Out.ok.injEq] at h
    exact ⟨[], by simp [h], rfl, by simp, by simp⟩
  | [a], hlen =>
    subst hlen
    have hs : step file out a = .ok (a :: out) := by
      cases out with
      | nil => rfl
      | cons p ps => simp [step, ho p (by simp)]
    simp only [fields, hs, Out.bind, Out.ok.injEq] at h
    exact ⟨[a], by simp [h], by simp, by simp, by simp⟩
  | a :: c :: cs, hlen =>
    have hs : step file out a = .ok (a :: out) := by
      cases out with
      | nil => rfl
      | cons p ps => simp [step, ho p (by simp)]
    have ha := hf a (by simp)
    have hc := hf c (by simp)
    obtain ⟨n1, hn1, _⟩ := ha.one
    obtain ⟨m1, hm1, _⟩ := hc.one
    simp only [fields, hs, Out.bind] at h
    simp only [step, hn1, List.length_singleton, ge_iff_le, Nat.reduceLeDiff, if_false] at h
    cases hm : merge file a c with
    | ok x =>
      simp only [hm] at h
      have mx := merge_field ha hc hm
      obtain ⟨k, hk, hkl, hk1, hk2⟩ := ih cs.length (by simp at hlen; omega) cs rfl (fun x hx => hf x (by simp [hx]))
        (out := x :: out) (r := r) (by
          intro y hy
          rcases List.mem_cons.1 hy with rfl | hy
          · simp [mx.sizes, hn1, hm1]
          · exact ho y hy) h
      simp only [List.length_cons] at hlen
      have hmod : n % 2 = cs.length % 2 := by omega
      have hdiv : n / 2 = cs.length / 2 + 1 := by omega
      refine ⟨k ++ [x], by simp [hk], by simp [hkl]; omega, ?_, ?_⟩
      · rw [hmod]
        intro y hy
        rw [List.drop_append] at hy
        rcases List.mem_append.1 hy with hy | hy
        · obtain ⟨p, hp, q, hq, e⟩ := hk1 y hy
          exact ⟨p, by simp [hp], q, by simp [hq], e⟩
        · have hy := List.mem_of_mem_drop hy
          simp only [List.mem_singleton] at hy
          subst hy
          exact ⟨a, by simp, c, by simp, mx⟩
      · intro h1
        have hne : cs ≠ [] := by
          intro e; rw [e] at hmod; simp at hmod; omega
        have := hk2 (by omega)
        have hkne : k ≠ [] := by
          intro e; rw [e] at hkl; simp at hkl; omega
        rw [List.head?_append_of_ne_nil _ hkne, this]
        obtain ⟨z, zs, rfl⟩ := List.exists_cons_of_ne_nil hne
        simp [List.getLast?_cons_cons]
    | err => rw [hm] at h; cases h
    | bad => rw [hm] at h; cases h
    | hang => rw [hm] at h; cases h

/-- **C214 (lost)**: of a 3D track of single fields, whatever their number, none of the merged blocks is written unless the sizes were
computed before; only the last block of an odd number is left. -/
theorem C214_lost {file : Bytes} {bs r : List FBlk} (hf : ∀ x ∈ bs, Field x) (h : fields file [] bs = .ok r) :
    (r.filterMap (written file false)).length ≤ bs.length % 2 ∧
    (∀ y ∈ r.filterMap (written file false), ∃ z, bs.getLast? = some z ∧ written file false z = some y) := by
  obtain ⟨k, hk, hkl, hk1, hk2⟩ := fields_even (out := []) bs hf (by simp) h
  rw [List.append_nil] at hk
  subst hk
  have hdrop : (r.drop (bs.length % 2)).filterMap (written file false) = [] := by
    rw [List.filterMap_eq_nil_iff]
    intro x hx
    obtain ⟨p, hp, c, hc, m⟩ := hk1 x hx
    have ht := m.track.trans (hf p hp).track
    simp [written, readF, m.auto, m.unread, ht]
  rcases Nat.mod_two_eq_zero_or_one bs.length with h0 | h1
  · rw [h0, List.drop_zero] at hdrop
    simp [hdrop, h0]
  · rw [h1] at hdrop
    cases r with
    | nil => simp at hkl; omega
    | cons a as =>
      simp only [List.drop_one, List.tail_cons] at hdrop
      have := hk2 h1
      simp only [List.head?_cons] at this
      cases hw : written file false a with
      | none => simp [hw, hdrop]
      | some y => simp [hw, hdrop, h1, ← this]

/-- **C214 (settled)**: when the sizes were computed before, the merged block is read again from the file in one piece: the second frame in
it is as long as the second field, but is what the file has behind the first one. -/
theorem C214_settled {file : Bytes} {p c x : FBlk} (hp : Field p) (hc : Field c) (h : merge file p c = .ok x)
    {n m : Nat} (hn : p.b.sizes = [n]) (hm : c.b.sizes = [m]) (hl : p.loc + n + m ≤ file.length) :
    (written file true x).map framesIn = some [(file.drop p.loc).take n, (file.drop (p.loc + n)).take m] := by
  have e := merge_field hp hc h
  have ht := e.track.trans hp.track
  obtain ⟨n', hn', hn31⟩ := hp.one
  obtain ⟨m', hm', hm31⟩ := hc.one
  have hnn : n' = n := by rw [hn] at hn'; simpa using hn'.symm
  have hmm : m' = m := by rw [hm] at hm'; simpa using hm'.symm
  subst hnn; subst hmm
  have hs : x.b.sizes = [n', m'] := by rw [e.sizes, hn, hm]; rfl
  have hb : bufSize [n', m'] = (n' + m' : Nat) := by simp [bufSize, s32_small hn31, s32_small hm31]
  have hlen : ¬ ((((file.drop p.loc).take (n' + m')).length : Int) < (n' + m' : Nat)) := by
    simp only [List.length_take, List.length_drop]; omega
  simp only [written, readF, e.auto, e.unread, ht, readFrames, hs, readPlain, hb, e.loc, Bool.true_and, Bool.not_true,
    Bool.false_eq_true, if_false, Int.toNat_natCast]
  rw [if_neg (by omega), if_neg hlen]
  simp only [Out.bind, Option.map_some, framesIn, cutFrames, Option.some.injEq, List.cons.injEq, and_true]
  refine ⟨by rw [List.take_take]; congr 1; omega, ?_⟩
  rw [List.drop_take, List.drop_drop, List.take_take]
  congr 1
  omega

/-- The frames that are written are those of the source. -/
def KeepsFields : Prop := ∀ (file : Bytes) (settled : Bool) (bs r : List FBlk), (∀ x ∈ bs, Field x) → fields file [] bs = .ok r →
  ((r.reverse.filterMap (written file settled)).map framesIn).flatten = (bs.map (framesOf file)).flatten

/-- A file with the two fields at 1 and 4 and the head of the second block between, each a byte for the example. -/
def file3D : Bytes := [0xa3, 0x11, 0xa3, 0x81, 0x22]
def field3D (loc : Nat) : FBlk := ⟨⟨[1], [], [], false, some (.enc .plain), none, true⟩, false, loc, true⟩

theorem field3D_field (loc : Nat) : Field (field3D loc) :=
  ⟨rfl, rfl, rfl, rfl, rfl, rfl, 1, rfl, by decide⟩

/-- **C214 counterexample**: both ways the second field is lost: with computed sizes the block has a byte of a block head in its place. -/
theorem C214_counterexample : ¬ KeepsFields := by
  intro h
  have hm : ∃ x, merge file3D (field3D 1) (field3D 4) = .ok x := ⟨_, rfl⟩
  obtain ⟨x, hx⟩ := hm
  have := h file3D true [field3D 1, field3D 4] [x] (by
    intro y hy
    simp only [List.mem_cons, List.not_mem_nil, or_false] at hy
    rcases hy with rfl | rfl <;> exact field3D_field _) (by
      simp only [fields, step, Out.bind]
      rw [if_neg (by decide), hx])
  have hw := C214_settled (field3D_field 1) (field3D_field 4) hx (n := 1) (m := 1) rfl rfl (by decide)
  simp only [List.reverse_singleton] at this
  cases hy : written file3D true x with
  | none => simp [hy] at hw
  | some y =>
    simp only [hy, Option.map_some, Option.some.injEq] at hw
    simp only [List.filterMap_cons, hy, List.filterMap_nil, List.map_cons, List.map_nil, hw] at this
    revert this
    decide

/-- **C214 (group)**: a Block in a BlockGroup makes the merge use a frame that was never set. -/
theorem C214_group {file : Bytes} {p c : FBlk} (hp : ∃ p', readF file p = .ok p') (hc : ∃ c', readF file c = .ok c')
    (hg : c.simple = false) : merge file p c = .bad := by
  obtain ⟨p', hp⟩ := hp
  obtain ⟨c', hc⟩ := hc
  have : c'.simple = false := by
    unfold readF at hc
    split at hc
    · simp at hc
    · obtain ⟨b, _, hb⟩ := Verif.Mkclean.Tracks.bind_ok hc
      simp only [Out.ok.injEq] at hb
      rw [← hb]; exact hg
  simp [merge, hp, hc, firstFrame, this, Out.bind]

theorem cutFrames_append (ns : List Nat) (d f : Bytes) (h : d.length = ns.sum) :
    cutFrames (ns ++ [f.length]) (d ++ f) = cutFrames ns d ++ [f] := by
  induction ns generalizing d with
  | nil =>
    have : d = [] := List.eq_nil_of_length_eq_zero (by simpa using h)
    simp [cutFrames, this]
  | cons n ns ih =>
    rw [List.sum_cons] at h
    simp only [List.cons_append, cutFrames]
    rw [List.take_append_of_le_length (by omega), List.drop_append_of_le_length (by omega), ih _ (by rw [List.length_drop]; omega)]

/-- **C214 (append)**: before the block is released the frame is there, behind those the block had. -/
theorem C214_append (x : FBlk) (f : Bytes) (h : x.b.data.length = x.b.sizes.sum) :
    framesIn (append f x) = framesIn x ++ [f] := cutFrames_append _ _ _ h

/-- **C214 (first)**: of a SimpleBlock with several frames only the first one is taken. -/
theorem C214_first (x : FBlk) (f : Bytes) (h : firstFrame x = .ok f) : (framesIn x).head? = some f := by
  unfold firstFrame at h
  split at h
  · simp at h
  · split at h
    · simp at h
    · rename_i n ns hn
      split at h
      · simp at h
      · simp only [Out.ok.injEq] at h
        simp [framesIn, hn, cutFrames, h]

/-- **C214 (error)**: when the second block cannot be read, the frame is used all the same. -/
theorem C214_error {file : Bytes} {p p' c : FBlk} (hp : readF file p = .ok p') (hc : readF file c = .err) : merge file p c = .bad := by
  simp [merge, hp, hc]

example : framesIn (append [9, 9] ⟨⟨[1, 2], [], [7, 8, 8], true, some (.enc .plain), none, true⟩, false, 0, true⟩) = [[7], [8, 8], [9, 9]] :=
  C214_append _ _ rfl
example : firstFrame ⟨⟨[1, 2], [], [7, 8, 8], true, some (.enc .plain), none, true⟩, false, 0, true⟩ = .ok [7] := rfl
/-- The second field reaches over the end of the file. -/
example : merge file3D (field3D 1) (field3D 5) = .bad := C214_error (p' := _) rfl rfl

/-- The theorems at work: three fields; the first two are merged and lost. -/
example : ∃ r, fields file3D [] [field3D 1, field3D 4, field3D 4] = .ok r ∧
    (r.filterMap (written file3D false)).length ≤ 1 := by
  have : ∃ r, fields file3D [] [field3D 1, field3D 4, field3D 4] = .ok r := ⟨_, rfl⟩
  obtain ⟨r, hr⟩ := this
  exact ⟨r, hr, (C214_lost (by
    intro y hy
    simp only [List.mem_cons, List.not_mem_nil, or_false] at hy
    rcases hy with rfl | rfl | rfl <;> exact field3D_field _) hr).1⟩
example : ∃ x, merge file3D (field3D 1) (field3D 4) = .ok x ∧ written file3D false x = none := by
  have : ∃ x, merge file3D (field3D 1) (field3D 4) = .ok x := ⟨_, rfl⟩
  obtain ⟨x, hx⟩ := this
  exact ⟨x, hx, (C214_refused (field3D_field _) (field3D_field _) hx).1⟩
example : merge file3D (field3D 1) { field3D 4 with simple := false } = .bad :=
  C214_group ⟨_, rfl⟩ ⟨_, rfl⟩ rfl

theorem length_mark (ms : List Bool) (t : Nat) : (mark ms t).length = max ms.length (t + 1) := by
  simp only [mark, List.length_set, List.length_append, List.length_replicate]; omega

theorem length_marks (ids : List Nat) (ms : List Bool) : (ids.foldl mark ms).length = ids.foldl (fun n t => max n (t + 1)) ms.length := by
  induction ids generalizing ms with
  | nil => rfl
  | cons t ids ih => simp only [List.foldl_cons, ih, length_mark]

theorem foldl_max_lt (ids : List Nat) (n t : Nat) : t < ids.foldl (fun n t => max n (t + 1)) n ↔ t < n ∨ ∃ i ∈ ids, t ≤ i := by
  induction ids generalizing n with
  | nil => simp
  | cons a ids ih =>
    simp only [List.foldl_cons, ih, List.mem_cons]
    constructor
    · rintro (h | ⟨i, hi, h⟩)
      · by_cases h' : t < n
        · exact .inl h'
        · exact .inr ⟨a, .inl rfl, by omega⟩
      · exact .inr ⟨i, .inr hi, h⟩
    · rintro (h | ⟨i, rfl | hi, h⟩)
      · exact .inl (by omega)
      · exact .inl (by omega)
      · exact .inr ⟨i, hi, h⟩

theorem getElem?_mark (ms : List Bool) (t k : Nat) :
    (mark ms t)[k]? = if k = t then some true else if k < ms.length then ms[k]? else if k < t then some false else none := by
  simp only [mark, List.getElem?_set, List.length_append, List.length_replicate]
  by_cases h : k = t
  · subst h
    rw [if_pos rfl, if_pos rfl, if_pos (by omega)]
  · rw [if_neg (Ne.symm h), if_neg h]
    by_cases h1 : k < ms.length
    · rw [List.getElem?_append_left h1, if_pos h1]
    · rw [List.getElem?_append_right (by omega), if_neg h1, List.getElem?_replicate]
      by_cases h2 : k < t
      · rw [if_pos (by omega), if_pos h2]
      · rw [if_neg (by omega), if_neg h2]

theorem marks_get (ids : List Nat) (ms : List Bool) (k : Nat) :
    (ids.foldl mark ms)[k]? = some true ↔ ms[k]? = some true ∨ k ∈ ids := by
  induction ids generalizing ms with
  | nil => simp
  | cons t ids ih =>
    rw [List.foldl_cons, ih, getElem?_mark, List.mem_cons]
    by_cases h : k = t
    · simp [h]
    · simp only [h, if_false, false_or]
      by_cases h1 : k < ms.length
      · simp [h1]
      · rw [if_neg h1, List.getElem?_eq_none (l := ms) (by omega)]
        split <;> simp

/-- **C215**: the tracks marked by `--alt-3d` are exactly those whose mark is found when the track is remuxed ... -/
theorem C215_marks_partial (ids : List Nat) (t : Nat) (h : ids = [] ∨ ∃ i ∈ ids, t ≤ i) :
    lookup (ids.foldl mark []) t = .ok (decide (t ∈ ids)) := by
  cases ids with
  | nil => simp [lookup]
  | cons a as =>
    simp only [List.cons_ne_nil, false_or] at h
    have hl : t < ((a :: as).foldl mark []).length := by
      rw [length_marks]; exact (foldl_max_lt _ _ _).2 (.inr h)
    have hg := marks_get (a :: as) [] t
    generalize (a :: as).foldl mark [] = ms at *
    have hne : ms ≠ [] := by intro e; simp [e] at hl
    unfold lookup
    rw [if_neg hne]
    rw [List.getElem?_eq_getElem hl] at hg ⊢
    simp only [Out.ok.injEq]
    simp only [List.getElem?_nil, reduceCtorEq, false_or, Option.some.injEq] at hg
    by_cases hm : t ∈ a :: as
    · rw [hg.2 hm]; simp [hm]
    · cases hv : ms[t] with
      | true => exact absurd (hg.1 hv) hm
      | false => simp [hm]

/-- **C215 (behind)**: ... but for any track with a higher number than all the marked ones the lookup reads behind the marks. -/
theorem C215_behind (ids : List Nat) (t : Nat) (h : ids ≠ []) (hb : ∀ i ∈ ids, i < t) :
    lookup (ids.foldl mark []) t = .bad := by
  have hl : ¬ t < (ids.foldl mark []).length := by
    rw [length_marks]
    intro hh
    rcases (foldl_max_lt _ _ _).1 hh with hh | ⟨i, hi, hh⟩
    · simp at hh
    · have := hb i hi; omega
  have hne : ids.foldl mark [] ≠ [] := by
    intro e
    obtain ⟨a, as, rfl⟩ := List.exists_cons_of_ne_nil h
    have : a < ((a :: as).foldl mark []).length := by
      rw [length_marks]; exact (foldl_max_lt _ _ _).2 (.inr ⟨a, by simp, Nat.le_refl _⟩)
    simp [e] at this
  unfold lookup
  rw [if_neg hne, List.getElem?_eq_none (by omega)]

/-- Every track can be remuxed beside 3D tracks. -/
def AnyTrackRemuxes : Prop := ∀ (ids : List Nat) (t : Nat), lookup (ids.foldl mark []) t = .ok (decide (t ∈ ids))

/-- **C215 counterexample**: `--alt-3d 1` on a file with video track 1 and audio track 2. -/
theorem C215_counterexample : ¬ AnyTrackRemuxes := by
  intro h
  have := h [1] 2
  rw [C215_behind [1] 2 (by simp) (by simp)] at this
  simp at this

example : lookup ([3, 1].foldl mark []) 2 = .ok false := C215_marks_partial _ _ (.inr ⟨3, by simp, by decide⟩)
example : lookup ([3, 1].foldl mark []) 1 = .ok true := C215_marks_partial _ _ (.inr ⟨3, by simp, by decide⟩)

end Verif.Props.Fields3D
