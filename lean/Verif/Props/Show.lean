import Verif.Ebml.ShowLemmas
import Verif.Props.Parse
/-! C234: the listing of mkvtree. -/
namespace Verif.Ebml.Scan
open EbmlDoc

theorem show_claims (S : Schema) (env : Env) (data : Bytes) : ∀ fuel, EltClaim S env data fuel ∧ LoopClaim S env data fuel
  | 0 => by
    refine ⟨?_, ?_⟩
    · intro up lv s r d l fr h _ hf
      have := (first_data S env data s r d fr h).1
      omega
    · intro m up e ue lv sub s pos fr _ _ _ _ _ hf
      omega
  | fuel + 1 => by
    obtain ⟨h1, h2⟩ := show_claims S env data fuel
    exact ⟨elt_of_loop S env data fuel h2, loop_of_elt S env data fuel h1 h2⟩

/-- C234 as hoped for: mkvtree lists the elements of every conformant file. -/
def Lists : Prop :=
  ∀ (S : Schema) (env : Env) (root : Nat) (docs : List Doc) (ns : List Node), (S.ctx root).cls = .master →
    LoadsToList S env 0 root docs ns →
    ∃ fuel ls lv p, mkvtree S env (encodeList docs) fuel root = .done ls none lv p ∧
      (ls.drop 1).map (Shown.place S) = placesList 0 docs

/-- C234 fails, and not for some files only: whatever the file holds, mkvtree reads through a null pointer after the first
line, which is not of the file. -/
theorem C234_counterexample :
    (∀ (S : Schema) (env : Env) (data : Bytes) (fuel root : Nat), (S.ctx root).cls = .master →
      mkvtree S env data (fuel + 1) root = .crash [⟨-1, .known root, -1⟩]) ∧ ¬ Lists := by
  have hall : ∀ (S : Schema) (env : Env) (data : Bytes) (fuel root : Nat), (S.ctx root).cls = .master →
      mkvtree S env data (fuel + 1) root = .crash [⟨-1, .known root, -1⟩] := by
    intro S env data fuel root h
    unfold mkvtree showElt streamElt
    rw [if_pos (show Kind.cls S (.known root) = .master from h)]
  refine ⟨hall, fun h => ?_⟩
  obtain ⟨fuel, ls, lv, p, h1, _⟩ := h mini miniEnv 0 [] [] rfl rfl
  cases fuel with
  | zero => simp [mkvtree, showElt] at h1
  | succ fuel => rw [hall mini miniEnv _ fuel 0 rfl] at h1; cases h1

/-- C234 for the program with that line mended: of a conformant file all of whose sizes are known every element is listed,
once, in the order of the file, with its position. What is missing: masters of unknown size and unknown IDs; and the
indentation is wrong, see below. -/
theorem C234_listed_partial (S : Schema) (env : Env) (root : Nat) (docs : List Doc) (ns : List Node)
    (hm : (S.ctx root).cls = .master) (h : LoadsToList S env 0 root docs ns)
    (fuel : Nat) (hf : 2 * (encodeList docs).length + 2 ≤ fuel) :
    ∃ ls lv p, mkvtreeMended S env (encodeList docs) fuel root = .done (⟨-1, .known root, -1⟩ :: ls) none lv p ∧
      ls.map (Shown.place S) = placesList 0 docs := by
  obtain ⟨data, hdata⟩ : ∃ data, data = encodeList docs := ⟨_, rfl⟩
  rw [← hdata] at hf ⊢
  have hconf := conf_of_loads S env root docs ns h
  have hrem : Rem S env data 0 [(⟨root, -1⟩, docs)] := by
    simp only [Rem, List.drop_zero, Nat.zero_add]
    rw [← hdata]
    refine ⟨hconf, by simp, Or.inl ⟨trivial, trivial⟩, by simp⟩
  have hfut : fut 0 [(⟨root, -1⟩, docs)] = placesList 0 docs := by simp [fut]
  obtain ⟨m, hmm⟩ : ∃ m : PCtx, m = ⟨root, -1⟩ := ⟨_, rfl⟩
  have hme : m.endPos = -1 := by rw [hmm]
  have hopen : ∀ s, openAt s m = true := fun s => by simp [openAt, hme]
  rw [← hmm] at hrem hfut
  have hup : [m].filter (openAt 0) = tops 0 [(m, docs)] := by simp [tops]
  cases fuel with
  | zero => omega
  | succ fuel =>
    have hL := (show_claims S env data fuel).2
    have finish : ∀ (ue : Int) (sub : Option Found) (pos : Nat) (fr1 : List (PCtx × List Doc)),
        Goes S env data [m] 0 fr1 sub pos → (sub ≠ none → ue ≤ 0 ∨ openAt 0 m = false) →
        (sub = none → fut 0 fr1 = [] ∧ ∀ c ∈ tops 0 fr1, c.endPos = -1) → fut 0 fr1 = placesList 0 docs →
        ∃ ls lv p, (showLoop S env data fuel [m] (streamElt root) ue (-1) sub pos).after [⟨-1, .known root, -1⟩] =
          .done (⟨-1, .known root, -1⟩ :: ls) none lv p ∧ ls.map (Shown.place S) = placesList 0 docs := by
      intro ue sub pos fr1 hg hue hnone hfr1
      obtain ⟨ls, next, lv', p, s', fr', e1, e2, e3, e4, e5, e6⟩ :=
        hL m [] (streamElt root) ue (-1) sub 0 pos fr1 (fun h => by cases h) (fun _ => hme) hg hue hnone (by omega)
      have hn : next = none := by
        cases next with
        | none => rfl
        | some g => have := e6 (by simp); rw [hopen] at this; cases this
      subst hn
      refine ⟨ls, lv', p, ?_, ?_⟩
      · rw [e1]; rfl
      · rw [hfr1, (e5 rfl).1, List.append_nil] at e4; exact e4.symm
    unfold mkvtreeMended showElt
    have w1 : (streamElt root).kind = .known root := rfl
    have w2 : (streamElt root).endPos = -1 := rfl
    have w3 : (streamElt root).pos = -1 := rfl
    have w4 : (streamElt root).streamPos = 0 := rfl
    simp only [w1, w2, w3, w4, show Kind.cls S (.known root) = .master from hm, if_true, ← hmm]
    rcases find_rem S env data 0 [m] 0 _ (by simp) hrem hup with ⟨k, q1, q2, q3, q4⟩ | ⟨r', d', fr1, k, q1, q2, q3, q4, q5⟩
    · rw [show Int.toNat 0 = 0 from rfl, q1]
      exact finish (0 + k) none 0 _ ⟨by simp, hrem, hup, rfl⟩ (fun h => absurd rfl h) (fun _ => ⟨q2, q4⟩) hfut
    · rw [show Int.toNat 0 = 0 from rfl, q1]
      have hne : fr1 ≠ [] := by
        obtain ⟨_, _, _, e, _⟩ := q2.cur
        rw [e]; simp
      refine finish (0 + k) (some (at' r' 0 d' (0 + k))) _ fr1 ⟨hne, q2.rem, by rw [q4]; exact hup, rfl, r', d', _, rfl, q2⟩ ?_
        (fun h => by cases h) (q3.trans hfut)
      intro _
      by_cases hk : k > 0
      · obtain ⟨t, up', e1, e2⟩ := q5 hk
        injection e1 with e1 _
        right; rw [e1]; exact e2
      · left; omega

/-- A Segment with Tags and Clusters. -/
def tagged : Schema where
  ctx := fun
    | 0 => ⟨0xFF, .master, some [1]⟩
    | 1 => ⟨0x18538067, .master, some [2, 5]⟩
    | 2 => ⟨0x1254C367, .master, some [3]⟩
    | 3 => ⟨0x7373, .master, some [4]⟩
    | 4 => ⟨0xE7, .uint, none⟩
    | 5 => ⟨0x1F43B675, .master, some [4]⟩
    | 6 => ⟨0xEC, .void, none⟩
    | _ => ⟨0xBF, .crc, none⟩
  globals := [6, 7]

/-- A Segment with a Tag and two Clusters. -/
def taggedDoc : Doc :=
  .group 0x18538067 1 true false
    [.group 0x1254C367 1 true false [.group 0x7373 1 true false [.elem 0xE7 1 [5]]],
     .group 0x1F43B675 1 true false [.elem 0xE7 1 [0]], .group 0x1F43B675 1 true true [.elem 0xE7 1 [9]]]

mutual
/-- Depths of the elements of a document at depth `k`, in its order. -/
def depths (k : Int) : Doc → List Int
  | .elem _ _ _ => [k]
  | .group _ _ _ crc ch => k :: ((if crc then [k + 1] else []) ++ depthsList (k + 1) ch)
def depthsList (k : Int) : List Doc → List Int
  | [] => []
  | d :: ds => depths k d ++ depthsList k ds
end

/-- The levels of a listing. -/
def ShowRes.levels : ShowRes → List Int
  | .done ls _ _ _ => ls.map (·.level)
  | _ => []

theorem leaf_loads (b : UInt8) : ∃ n, LoadsTo tagged miniEnv 0 4 (.elem 0xE7 1 [b]) n := by
  simp only [LoadsTo]
  refine ⟨.leaf ⟨0xE7, 1, 1, true, true, true⟩ ((readLeaf miniEnv [b] .uint).getD .void), rfl,
    ⟨by decide, by decide, by simp, 1, ids_mini.2.2.2⟩, by simp [tagged, validateSize], ?_⟩
  unfold FlatNode
  exact ⟨_, rfl, rfl⟩

theorem cons_loads (c r : Nat) (d : Doc) (ds : List Doc) (ho : Offers tagged c (docId d) r)
    (h : ∃ n, LoadsTo tagged miniEnv 0 r d n) (hs : ∃ ns, LoadsToList tagged miniEnv 0 c ds ns) :
    ∃ ns, LoadsToList tagged miniEnv 0 c (d :: ds) ns := by
  obtain ⟨n, h⟩ := h
  obtain ⟨ns, hs⟩ := hs
  refine ⟨n :: ns, ?_⟩
  rw [LoadsToList]
  exact ⟨r, n, ns, ho, h, hs, rfl⟩

theorem nil_loads (c : Nat) : ∃ ns, LoadsToList tagged miniEnv 0 c [] ns := ⟨[], rfl⟩

theorem group_loads (id r n : Nat) (crc : Bool) (ch : List Doc) (hi : (tagged.ctx r).id = id) (hn : WellFormedId id n)
    (hs : (payload (.group id 1 true crc ch)).length < 127) (hm : (tagged.ctx r).cls = .master)
    (hc : crc = true → ∃ rc, Offers tagged r 0xBF rc ∧ (tagged.ctx rc).cls = .crc)
    (h : ∃ ns, LoadsToList tagged miniEnv 0 r ch ns) : ∃ n, LoadsTo tagged miniEnv 0 r (.group id 1 true crc ch) n := by
  obtain ⟨ns, h⟩ := h
  cases crc with
  | false =>
    refine ⟨.master ⟨id, (payload (.group id 1 true false ch)).length, 1, true, true, true⟩ 0 ns, ?_⟩
    rw [LoadsTo]
    exact ⟨hi, rfl, ⟨by decide, by decide, hs, n, hn⟩, hm, ns, h, Or.inl rfl, rfl⟩
  | true =>
    refine ⟨.master ⟨id, (payload (.group id 1 true true ch)).length, 1, true, true, true⟩ 0 (crcNode (encodeList ch) :: ns), ?_⟩
    rw [LoadsTo]
    exact ⟨hi, rfl, ⟨by decide, by decide, hs, n, hn⟩, hm, ns, h, hc rfl, rfl⟩

/-- The file meets what `C234_listed_partial` asks for. -/
theorem tagged_loads : ∃ ns, LoadsToList tagged miniEnv 0 0 [taggedDoc] ns := by
  have o1 : Offers tagged 0 0x18538067 1 := ⟨rfl, _, rfl, Or.inl ⟨by decide, by decide⟩⟩
  have o2 : Offers tagged 1 0x1254C367 2 := ⟨rfl, _, rfl, Or.inl ⟨by decide, by decide⟩⟩
  have o3 : Offers tagged 2 0x7373 3 := ⟨rfl, _, rfl, Or.inl ⟨by decide, by decide⟩⟩
  have o4 : Offers tagged 3 0xE7 4 := ⟨rfl, _, rfl, Or.inl ⟨by decide, by decide⟩⟩
  have o5 : Offers tagged 1 0x1F43B675 5 := ⟨rfl, _, rfl, Or.inl ⟨by decide, by decide⟩⟩
  have o6 : Offers tagged 5 0xE7 4 := ⟨rfl, _, rfl, Or.inl ⟨by decide, by decide⟩⟩
  have o7 : Offers tagged 5 0xBF 7 := ⟨rfl, _, rfl, Or.inr ⟨by decide, by decide, by decide⟩⟩
  have w1 : WellFormedId 0x1254C367 4 := by unfold WellFormedId; decide
  have w2 : WellFormedId 0x7373 2 := by unfold WellFormedId; decide
  refine cons_loads 0 1 taggedDoc [] o1 ?_ (nil_loads 0)
  refine group_loads _ 1 4 false _ rfl ids_mini.1 (by decide +kernel) rfl (fun h => by cases h) ?_
  refine cons_loads 1 2 _ _ o2 ?_ (cons_loads 1 5 _ _ o5 ?_ (cons_loads 1 5 _ _ o5 ?_ (nil_loads 1)))
  · refine group_loads _ 2 4 false _ rfl w1 (by decide +kernel) rfl (fun h => by cases h) ?_
    refine cons_loads 2 3 _ _ o3 ?_ (nil_loads 2)
    refine group_loads _ 3 2 false _ rfl w2 (by decide +kernel) rfl (fun h => by cases h) ?_
    exact cons_loads 3 4 _ _ o4 (leaf_loads 5) (nil_loads 3)
  · exact group_loads _ 5 4 false _ rfl ids_mini.2.1 (by decide +kernel) rfl (fun h => by cases h)
      (cons_loads 5 4 _ _ o6 (leaf_loads 0) (nil_loads 5))
  · exact group_loads _ 5 4 true _ rfl ids_mini.2.1 (by decide +kernel) rfl (fun _ => ⟨7, o7, rfl⟩)
      (cons_loads 5 4 _ _ o6 (leaf_loads 9) (nil_loads 5))

/-- The indentation of the mended program is wrong for good files: where two masters end at the same place, what follows is
shown at too low a level. Here the second Cluster stands as far left as the Segment it is in, and its children too. -/
theorem C234_levels_counterexample :
    depthsList 0 [taggedDoc] = [0, 1, 2, 3, 1, 2, 1, 2, 2] ∧
    (mkvtreeMended tagged miniEnv (encodeList [taggedDoc]) 100 0).levels = [-1, 0, 1, 2, 3, 1, 2, -1, 0, 0] := by
  decide +kernel

/-- A case of `C234_listed_partial`: the nine elements of the file above. -/
example : ∃ ls lv p, mkvtreeMended tagged miniEnv (encodeList [taggedDoc]) 78 0 = .done (⟨-1, .known 0, -1⟩ :: ls) none lv p ∧
    ls.map (Shown.place tagged) = [(0x18538067, 0), (0x1254C367, 5), (0x7373, 10), (0xE7, 13), (0x1F43B675, 16), (0xE7, 21),
      (0x1F43B675, 24), (0xBF, 29), (0xE7, 35)] := by
  obtain ⟨ns, h⟩ := tagged_loads
  obtain ⟨ls, lv, p, h1, h2⟩ := C234_listed_partial tagged miniEnv 0 [taggedDoc] ns rfl h 78 (by decide +kernel)
  refine ⟨ls, lv, p, h1, h2.trans ?_⟩
  decide +kernel

end Verif.Ebml.Scan
