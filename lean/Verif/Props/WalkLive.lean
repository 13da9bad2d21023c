import Verif.Ebml.WalkLive
import Verif.Props.LoadSiblings
/-!
Property theorems C227: mkclean and mkvalidator see every Cluster of a live recording.
-/
set_option linter.unusedSimpArgs false
namespace Verif.Ebml.Scan
open EbmlDoc

/-- C227: whatever the program reads of the Segment, it sees all of it, in order and complete: the elements of known size it asks
for and all Clusters of unknown size, however many there are, whatever they contain and whether the file ends behind them or
other elements follow. Elements with unknown IDs are passed over. The Segment is of unknown size and ends with the file, or of
known size and ended by an element of known size; then nothing behind it is seen. -/
theorem C227_all_seen_partial (S : Schema) (env : Env) (w : Walker) (sg rc cid : Nat) (hcl : ClusterOk S sg rc cid)
    (hw : w.cluster = rc) (items : List Item) (e : Int) (up : List PCtx) (before after : Bytes)
    (hok : ItemsOk S env w.reads sg rc cid e up items)
    (he : SegmentEnds (before ++ encodeList (items.map (Item.doc cid)) ++ after) e up
      (before ++ encodeList (items.map (Item.doc cid))).length)
    (fuel : Nat) (hf : items.length ≤ fuel) :
    walkFrom S env w (before ++ encodeList (items.map (Item.doc cid)) ++ after) (⟨sg, e⟩ :: up) fuel before.length =
      some (items.flatMap (Item.seen w.reads rc cid)) := by
  refine walk_items S env w sg rc cid hcl hw _ e up after items before.length fuel hok ?_ (by simp) (by rw [← List.length_append]; exact he) hf
  rw [List.append_assoc]
  exact List.drop_left' rfl

/-- The Clusters among the elements of a recording. -/
def clustersOf (rc cid : Nat) : List Item → List Node
  | [] => []
  | .live c ns :: xs => c.node cid ns :: clustersOf rc cid xs
  | .known r _ n :: xs => if r = rc then n :: clustersOf rc cid xs else clustersOf rc cid xs
  | .stray _ _ _ :: xs => clustersOf rc cid xs

theorem seen_clusters (reads : Nat → Option (Bool × Nat)) (rc cid : Nat) (hr : (reads rc).isSome = true) : ∀ items : List Item,
    ((items.flatMap (Item.seen reads rc cid)).filter (fun x => x.1 = rc)).map (·.2) = clustersOf rc cid items
  | [] => rfl
  | .live c ns :: xs => by
    have ih := seen_clusters reads rc cid hr xs
    rw [List.flatMap_cons, List.filter_append, List.map_append, ih]
    simp [Item.seen, clustersOf]
  | .stray _ _ _ :: xs => by
    have ih := seen_clusters reads rc cid hr xs
    rw [List.flatMap_cons, List.filter_append, List.map_append, ih]
    simp [Item.seen, clustersOf]
  | .known r d n :: xs => by
    have ih := seen_clusters reads rc cid hr xs
    rw [List.flatMap_cons, List.filter_append, List.map_append, ih]
    by_cases h : r = rc
    · subst h
      simp [Item.seen, clustersOf, hr]
    · cases hx : (reads r).isSome <;> simp [Item.seen, clustersOf, hx, h]

theorem clusterOk_matroska : ClusterOk Master.mkvScan 269 63 0x1F43B675 :=
  ⟨C226_matroska_ends.offers, ⟨4, ids_mini.2.1⟩, by decide +kernel⟩

/-- C227 for mkclean, in any mode: its list of Clusters has all of them. -/
theorem C227_mkclean_partial (env : Env) (live keepCues remux : Bool) (items : List Item) (e : Int)
    (up : List PCtx) (before after : Bytes)
    (hok : ItemsOk Master.mkvScan env (mkcleanWalker Master.mkvScan 63 live keepCues remux).reads 269 63 0x1F43B675 e up items)
    (he : SegmentEnds (before ++ encodeList (items.map (Item.doc 0x1F43B675)) ++ after) e up
      (before ++ encodeList (items.map (Item.doc 0x1F43B675))).length) (fuel : Nat) (hf : items.length ≤ fuel) :
    ∃ l, walkFrom Master.mkvScan env (mkcleanWalker Master.mkvScan 63 live keepCues remux)
        (before ++ encodeList (items.map (Item.doc 0x1F43B675)) ++ after) (⟨269, e⟩ :: up) fuel before.length = some l ∧
      (l.filter (fun x => x.1 = 63)).map (·.2) = clustersOf 63 0x1F43B675 items :=
  ⟨_, C227_all_seen_partial _ env _ 269 63 _ clusterOk_matroska rfl items e up before after hok he fuel hf,
    seen_clusters _ 63 _ (by
      have h : (Master.mkvScan.ctx 63).id = 0x1F43B675 := by decide +kernel
      simp only [mkcleanWalker, h]
      rfl) items⟩

/-- C227 for mkvalidator, with and without `--live`. -/
theorem C227_mkvalidator_partial (env : Env) (live : Bool) (items : List Item) (e : Int)
    (up : List PCtx) (before after : Bytes)
    (hok : ItemsOk Master.mkvScan env (mkvalidatorWalker Master.mkvScan 63 live).reads 269 63 0x1F43B675 e up items)
    (he : SegmentEnds (before ++ encodeList (items.map (Item.doc 0x1F43B675)) ++ after) e up
      (before ++ encodeList (items.map (Item.doc 0x1F43B675))).length) (fuel : Nat) (hf : items.length ≤ fuel) :
    ∃ l, walkFrom Master.mkvScan env (mkvalidatorWalker Master.mkvScan 63 live)
        (before ++ encodeList (items.map (Item.doc 0x1F43B675)) ++ after) (⟨269, e⟩ :: up) fuel before.length = some l ∧
      (l.filter (fun x => x.1 = 63)).map (·.2) = clustersOf 63 0x1F43B675 items :=
  ⟨_, C227_all_seen_partial _ env _ 269 63 _ clusterOk_matroska rfl items e up before after hok he fuel hf,
    seen_clusters _ 63 _ (by
      have h : (Master.mkvScan.ctx 63).id = 0x1F43B675 := by decide +kernel
      simp only [mkvalidatorWalker, h]
      rfl) items⟩

/-- Which sections the programs read, by name: Info and Tracks always, the Clusters always, the others as the options say. -/
theorem C227_sections (live keepCues remux : Bool) :
    let m := (mkcleanWalker Master.mkvScan 63 live keepCues remux).reads
    let v := (mkvalidatorWalker Master.mkvScan 63 live).reads
    (∀ r, (Master.mkvScan.ctx r).id = 0x1549A966 → m r = some (true, 0) ∧ v r = some (true, 1)) ∧
    (∀ r, (Master.mkvScan.ctx r).id = 0x1654AE6B → m r = some (true, 0) ∧ v r = some (true, 4)) ∧
    (∀ r, (Master.mkvScan.ctx r).id = 0x1254C367 → ((m r).isSome = !live) ∧ v r = some (true, 4)) ∧
    (∀ r, (Master.mkvScan.ctx r).id = 0x1043A770 ∨ (Master.mkvScan.ctx r).id = 0x1941A469 →
      ((m r).isSome = !live) ∧ ((v r).isSome = !live)) ∧
    (∀ r, (Master.mkvScan.ctx r).id = 0x1C53BB6B → ((m r).isSome = (!live && keepCues)) ∧ ((v r).isSome = !live)) ∧
    (∀ r, (Master.mkvScan.ctx r).id = 0x114D9B74 → m r = none ∧ ((v r).isSome = !live)) ∧
    (∀ r, (Master.mkvScan.ctx r).id = 0x1F43B675 → m r = some (!remux, 0) ∧ v r = some (false, 4)) := by
  refine ⟨?_, ?_, ?_, ?_, ?_, ?_, ?_⟩
  all_goals
    intro r h
    try rcases h with h | h
  all_goals
    simp only [mkcleanWalker, mkvalidatorWalker, h]
    cases live <;> cases keepCues <;> simp

/-- An element of unknown size that is not read and has nothing inside: mkvalidator goes on with the element behind it; mkclean
goes on inside that element, which it drops (with assertions enabled it aborts, mkclean.c:1846). -/
theorem C227_passed_over (S : Schema) (env : Env) (w : Walker) (sg rc cid : Nat) (hcl : ClusterOk S sg rc cid) (up : List PCtx)
    (before : Bytes) (r id len : Nat) (hr : w.reads r = none) (x : Item) (xs : List Item)
    (hok : ItemsOk S env w.reads sg rc cid (-1) up (x :: xs)) (fuel : Nat) :
    let d : Doc := .group id len false false []
    let data := before ++ encode d ++ encodeList ((x :: xs).map (Item.doc cid))
    walk S env w data (⟨sg, -1⟩ :: up) (fuel + 1) 0 (liveHead r before.length d) =
      if w.keeps then walk S env w data (⟨sg, -1⟩ :: up) fuel 0 (x.head rc cid (before ++ encode d).length (-1))
      else walkFrom S env w data (⟨sg, -1⟩ :: up) fuel (x.head rc cid (before ++ encode d).length (-1)).posData := by
  intro d data
  have hel : (encode d).length = (idField id).length + len := by
    simp only [d, encode_group]
    simp [unknownField_length, payload, encodeList]
  have hdrop : data.drop (before ++ encode d).length = encode (x.doc cid) ++ encodeList (xs.map (Item.doc cid)) := by
    simp only [data]
    rw [List.drop_left' rfl, List.map_cons, encodeList_cons]
  have hfind := Item.find S env w.reads sg rc cid hcl x data _ _ (-1) up hok.1 (Or.inl rfl) hdrop
  have hsp : (liveHead r before.length d).streamPos.toNat = (before ++ encode d).length := by
    rw [List.length_append, hel]
    simp only [liveHead, d, docId, docLen]
    omega
  have hkind : (liveHead r before.length d).kind = .known r := rfl
  have hfin : (liveHead r before.length d).finite = false := rfl
  rw [walk]
  simp only [hkind, hr, hfin, hsp, hfind, Bool.false_eq_true, if_false, walkFrom]

/-- The two programs by name. -/
theorem C227_passed_over_programs (S : Schema) (env : Env) (sg rc cid : Nat) (hcl : ClusterOk S sg rc cid) (up : List PCtx)
    (before : Bytes) (r id len : Nat) (live keepCues remux : Bool) (x : Item) (xs : List Item) (fuel : Nat) :
    let d : Doc := .group id len false false []
    let data := before ++ encode d ++ encodeList ((x :: xs).map (Item.doc cid))
    let m := mkcleanWalker S rc live keepCues remux
    let v := mkvalidatorWalker S rc live
    (v.reads r = none → ItemsOk S env v.reads sg rc cid (-1) up (x :: xs) →
      walk S env v data (⟨sg, -1⟩ :: up) (fuel + 1) 0 (liveHead r before.length d) =
        walk S env v data (⟨sg, -1⟩ :: up) fuel 0 (x.head rc cid (before ++ encode d).length (-1))) ∧
    (m.reads r = none → ItemsOk S env m.reads sg rc cid (-1) up (x :: xs) →
      walk S env m data (⟨sg, -1⟩ :: up) (fuel + 1) 0 (liveHead r before.length d) =
        walkFrom S env m data (⟨sg, -1⟩ :: up) fuel (x.head rc cid (before ++ encode d).length (-1)).posData) := by
  intro d data m v
  exact ⟨fun hr hok => C227_passed_over S env v sg rc cid hcl up before r id len hr x xs hok fuel,
    fun hr hok => C227_passed_over S env m sg rc cid hcl up before r id len hr x xs hok fuel⟩

/-- An element that cannot be read ends mkvalidator; mkclean leaves it out and goes on where reading stopped. -/
theorem C227_unreadable (S : Schema) (env : Env) (rc : Nat) (live keepCues remux : Bool) (data : Bytes) (ctx : List PCtx)
    (up : Int) (g : Found) (r : Nat) (hg : g.kind = .known r) (fuel : Nat) :
    (∀ a k p, (mkvalidatorWalker S rc live).reads r = some (a, k) → readElt S env a data.length data false ctx k g = .err p →
      walk S env (mkvalidatorWalker S rc live) data ctx (fuel + 1) up g = none) ∧
    (∀ a k p, (mkcleanWalker S rc live keepCues remux).reads r = some (a, k) →
      readElt S env a data.length data false ctx k g = .err p →
      walk S env (mkcleanWalker S rc live keepCues remux) data ctx (fuel + 1) up g =
        match findNext S true (data.length + 1) data p ctx up with
        | .found h => walk S env (mkcleanWalker S rc live keepCues remux) data ctx fuel h.levels h
        | .none _ _ => some []
        | _ => none) := by
  refine ⟨fun a k p h1 h2 => ?_, fun a k p h1 h2 => ?_⟩
  · rw [walk]
    simp only [hg, h1, h2]
    rfl
  · rw [walk]
    simp only [hg, h1, h2]
    rfl

/-- A case: an integer whose two bytes are cut off by the end of the file cannot be read. -/
example : ∃ p, readElt mini miniEnv true 2 [0x42, 0x86] false [⟨1, -1⟩] 0 ⟨.known 3, 0, 2, 1, 2, 5, true, 0, 3⟩ = .err p := ⟨2, rfl⟩

/-- The element has a known size. -/
def Item.Sized : Item → Prop
  | .live _ _ => False
  | _ => True

theorem itemsOk_sized (S : Schema) (env : Env) (reads : Nat → Option (Bool × Nat)) (sg rc cid : Nat) (e : Int) (up : List PCtx) :
    ∀ items : List Item, (∀ x ∈ items, x.Sized ∧ x.Ok S env reads sg rc up) → ItemsOk S env reads sg rc cid e up items
  | [], _ => trivial
  | x :: xs, h => by
    obtain ⟨h1, h2⟩ := h x List.mem_cons_self
    refine ⟨h2, ?_, itemsOk_sized S env reads sg rc cid e up xs (fun y hy => h y (List.mem_cons_of_mem _ hy))⟩
    cases x with
    | live => exact h1.elim
    | known => trivial
    | stray => trivial

/-- C231: in an ordinary file, whose Segment and sections have known sizes, a program sees exactly the sections it reads, in order
and complete, passes over elements with unknown IDs, and sees nothing of what follows the Segment, whatever it is. -/
theorem C231_ordinary_partial (S : Schema) (env : Env) (w : Walker) (sg rc cid : Nat) (hcl : ClusterOk S sg rc cid)
    (hw : w.cluster = rc) (items : List Item) (up : List PCtx) (before after : Bytes)
    (hok : ∀ x ∈ items, x.Sized ∧ x.Ok S env w.reads sg rc up)
    (hup : ∀ c ∈ up, c.endPos = ((before ++ encodeList (items.map (Item.doc cid))).length : Int))
    (fuel : Nat) (hf : items.length ≤ fuel) :
    walkFrom S env w (before ++ encodeList (items.map (Item.doc cid)) ++ after)
      (⟨sg, (before ++ encodeList (items.map (Item.doc cid))).length⟩ :: up) fuel before.length =
      some (items.flatMap (Item.seen w.reads rc cid)) :=
  C227_all_seen_partial S env w sg rc cid hcl hw items _ up before after
    (itemsOk_sized S env w.reads sg rc cid _ up items hok) (Or.inr ⟨rfl, hup⟩) fuel hf

/-- C231 in full: also with Clusters of unknown size the program gets through a Segment of known size. -/
def ReadsKnownSegments (S : Schema) (env : Env) (w : Walker) (sg rc cid : Nat) : Prop :=
  ∀ (items : List Item) (up : List PCtx) (before after : Bytes), ItemsOk S env w.reads sg rc cid (-1) up items →
    (∀ c ∈ up, c.endPos = ((before ++ encodeList (items.map (Item.doc cid))).length : Int)) →
    ∃ fuel l, walkFrom S env w (before ++ encodeList (items.map (Item.doc cid)) ++ after)
      (⟨sg, (before ++ encodeList (items.map (Item.doc cid))).length⟩ :: up) fuel before.length = some l

/-- The program crashes on every file whose Segment has a known size and ends with a Cluster of unknown size, whatever is in the
Cluster, in front of it and behind the Segment: the loader goes up from the end of the Cluster and uses the element it did not
find (ebmlmaster.c:416-418). -/
theorem C231_open_last (S : Schema) (env : Env) (w : Walker) (sg rc cid : Nat) (hcl : ClusterOk S sg rc cid)
    (c : Open1) (ns : List Node) (up : List PCtx) (before after : Bytes) (hok : (Item.live c ns).Ok S env w.reads sg rc up)
    (hup : ∀ x ∈ up, x.endPos = ((before ++ encode (c.doc cid)).length : Int)) (fuel : Nat) :
    walkFrom S env w (before ++ encode (c.doc cid) ++ after) (⟨sg, (before ++ encode (c.doc cid)).length⟩ :: up) fuel before.length =
      none := by
  rw [List.length_append] at hup ⊢
  exact walk_open_last S env w sg rc cid hcl _ up after c ns before.length fuel hok (by simp)
    (by rw [List.append_assoc]; exact List.drop_left' rfl) hup

/-- So C231 fails in full, for mkclean and for mkvalidator. -/
theorem C231_counterexample (env : Env) (live keepCues remux : Bool) :
    ¬ ReadsKnownSegments Master.mkvScan env (mkcleanWalker Master.mkvScan 63 live keepCues remux) 269 63 0x1F43B675 ∧
    ¬ ReadsKnownSegments Master.mkvScan env (mkvalidatorWalker Master.mkvScan 63 live) 269 63 0x1F43B675 := by
  have hid : (Master.mkvScan.ctx 63).id = 0x1F43B675 := by decide +kernel
  have key : ∀ w : Walker, (∃ a k, w.reads 63 = some (a, k)) → ¬ ReadsKnownSegments Master.mkvScan env w 269 63 0x1F43B675 := by
    rintro w ⟨a, k, hr⟩ h
    have hok : (Item.live ⟨1, []⟩ []).Ok Master.mkvScan env w.reads 269 63 [] :=
      ⟨a, k, hr, by decide, by decide, by simp only [LoadsToList]⟩
    obtain ⟨fuel, l, hl⟩ := h [.live ⟨1, []⟩ []] [] [] [] ⟨hok, rfl, trivial⟩ (by simp)
    have hn := C231_open_last Master.mkvScan env w 269 63 0x1F43B675 clusterOk_matroska ⟨1, []⟩ [] [] [] [] hok (by simp) fuel
    have he : encodeList ([Item.live ⟨1, []⟩ []].map (Item.doc 0x1F43B675)) = encode (Open1.doc 0x1F43B675 ⟨1, []⟩) := by
      simp only [List.map_cons, List.map_nil, encodeList_cons, Item.doc]
      simp [encodeList]
    rw [he, hn] at hl
    cases hl
  refine ⟨key _ ⟨!remux, 0, ?_⟩, key _ ⟨false, 4, ?_⟩⟩
  · simp only [mkcleanWalker, hid]
  · simp only [mkvalidatorWalker, hid]

/-- An ordinary Segment in the small schema with a second one behind it. -/
example :
    let items : List Item := [.known 3 (.elem 0x4286 1 [7]) (.leaf ⟨0x4286, 1, 1, true, true, true⟩ (.uint 7)), .stray 0x81 1 [1, 2]]
    walkFrom mini miniEnv ⟨fun r => if r = 3 then some (true, 0) else none, 2, false, false⟩
      ([0x18, 0x53, 0x80, 0x67, 0x88] ++ encodeList (items.map (Item.doc 0x1F43B675)) ++ [0x18, 0x53, 0x80, 0x67, 0x84, 0x42, 0x86, 0x81, 9])
      [⟨1, 13⟩, ⟨0, 13⟩] 5 5 = some [(3, .leaf ⟨0x4286, 1, 1, true, true, true⟩ (.uint 7))] := by
  intro items
  have hlen : encodeList (items.map (Item.doc 0x1F43B675)) = [0x42, 0x86, 0x81, 7, 0x81, 0x82, 1, 2] := by decide +kernel
  have := C231_ordinary_partial mini miniEnv ⟨fun r => if r = 3 then some (true, 0) else none, 2, false, false⟩ 1 2 0x1F43B675
    ⟨ends_mini.offers, ⟨4, ids_mini.2.1⟩, rfl⟩ rfl items [⟨0, 13⟩] [0x18, 0x53, 0x80, 0x67, 0x88]
    [0x18, 0x53, 0x80, 0x67, 0x84, 0x42, 0x86, 0x81, 9] ?_ (by rw [hlen]; decide) 5 (by decide)
  · rw [hlen] at this ⊢
    exact this
  · intro x hx
    rcases List.mem_cons.mp hx with rfl | hx
    · exact ⟨trivial, offers_mini.2.2.1, 0, by simp, rfl, ⟨by decide, by decide, by simp, 2, ids_mini.2.2.1⟩, rfl,
        ⟨.uint 7, by decide +kernel, rfl⟩⟩
    · rcases List.mem_cons.mp hx with rfl | hx
      · refine ⟨trivial, ⟨by decide, by decide, by decide, 1, by unfold WellFormedId; omega⟩, ?_⟩
        intro e
        refine ⟨?_, by decide, ?_⟩
        · intro c hc
          rcases List.mem_cons.mp hc with rfl | hc
          · exact ⟨_, rfl, by decide⟩
          · rcases List.mem_cons.mp hc with rfl | hc
            · exact ⟨_, rfl, by decide⟩
            · cases hc
        · intro c hc
          rcases List.mem_cons.mp hc with rfl | hc
          · show (mini.ctx 1).id ≠ 0x81
            decide
          · rcases List.mem_cons.mp hc with rfl | hc
            · decide
            · cases hc
      · cases hx

/-- A recording in the small schema: a number, two Clusters of unknown size, another number, an unknown element, a third Cluster. -/
def walkItems : List Item :=
  [.known 3 (.elem 0x4286 1 [7]) (.leaf ⟨0x4286, 1, 1, true, true, true⟩ (.uint 7)),
   .live ⟨1, [.elem 0xE7 1 [5]]⟩ [.leaf ⟨0xE7, 1, 1, true, true, true⟩ (.sint 5)],
   .live ⟨8, []⟩ [],
   .known 3 (.elem 0x4286 1 [9]) (.leaf ⟨0x4286, 1, 1, true, true, true⟩ (.uint 9)),
   .stray 0x81 1 [1, 2],
   .live ⟨2, []⟩ []]

example : ItemsOk mini miniEnv (fun r => if r = 2 then some (false, 0) else none) 1 2 0x1F43B675 (-1) [⟨0, -1⟩] walkItems := by
  have hc : Ends mini 2 1 0x1F43B675 2 := ends_mini
  have hu : Ends mini 2 1 0x4286 3 := ⟨rfl, ⟨_, rfl, by decide⟩, by decide, _, rfl, by decide, by decide⟩
  have hk (v : UInt8) (hv : readLeaf miniEnv [v] .uint = some (.uint v.toNat)) : LoadsTo mini miniEnv 0 3 (.elem 0x4286 1 [v])
      (.leaf ⟨0x4286, 1, 1, true, true, true⟩ (.uint v.toNat)) :=
    ⟨rfl, ⟨by decide, by decide, by simp, 2, ids_mini.2.2.1⟩, rfl, ⟨.uint v.toNat, hv, rfl⟩⟩
  refine ⟨⟨offers_mini.2.2.1, 0, by simp, hk 7 (by decide +kernel)⟩, trivial,
    ⟨false, 0, rfl, by decide, by decide, ?_⟩, hc, ⟨false, 0, rfl, by decide, by decide, ?_⟩, hu,
    ⟨offers_mini.2.2.1, 0, by simp, hk 9 (by decide +kernel)⟩, trivial, ⟨⟨by decide, by decide, by decide, 1, by unfold WellFormedId; omega⟩, ?_⟩, trivial,
    ⟨false, 0, rfl, by decide, by decide, ?_⟩, rfl, trivial⟩
  · simp only [LoadsToList, LoadsTo]
    exact ⟨4, _, _, offers_mini.2.2.2.1, ⟨rfl, ⟨by decide, by decide, by decide, 1, ids_mini.2.2.2⟩, by decide +kernel,
      ⟨.sint 5, by decide +kernel, rfl⟩⟩, rfl, rfl⟩
  · simp only [LoadsToList]
  · intro e
    refine ⟨?_, by decide, ?_⟩
    · intro c hc
      rcases List.mem_cons.mp hc with rfl | hc
      · exact ⟨_, rfl, by decide⟩
      · rcases List.mem_cons.mp hc with rfl | hc
        · exact ⟨_, rfl, by decide⟩
        · cases hc
    · intro c hc
      rcases List.mem_cons.mp hc with rfl | hc
      · show (mini.ctx 1).id ≠ 0x81
        decide
      · rcases List.mem_cons.mp hc with rfl | hc
        · decide
        · cases hc
  · simp only [LoadsToList]

/-- A recording in the Matroska table: empty Clusters of unknown size, for mkclean in live mode. -/
example : ItemsOk Master.mkvScan miniEnv (mkcleanWalker Master.mkvScan 63 true false false).reads 269 63 0x1F43B675 (-1) []
    [.live ⟨1, []⟩ [], .live ⟨8, []⟩ [], .live ⟨1, []⟩ []] := by
  have h : (Master.mkvScan.ctx 63).id = 0x1F43B675 := by decide +kernel
  have hr : (mkcleanWalker Master.mkvScan 63 true false false).reads 63 = some (true, 0) := by simp only [mkcleanWalker, h]; rfl
  refine ⟨⟨true, 0, hr, by decide, by decide, ?_⟩, C226_matroska_ends, ⟨true, 0, hr, by decide, by decide, ?_⟩,
    C226_matroska_ends, ⟨true, 0, hr, by decide, by decide, ?_⟩, rfl, trivial⟩
  all_goals simp only [LoadsToList]

end Verif.Ebml.Scan
