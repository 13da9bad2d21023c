import Verif.Ebml.LoadTyped
import Verif.Ebml.LoadLive
import Verif.Ebml.LoadSafe
import Verif.Ebml.LoadCut
import Verif.Props.Parse
/-!
Property theorems C105 to C108: loading ends, what it delivers has a type and comes from the stream,
documents still being written load completely, truncated ones as far as they go; a further
counterexample to C71.
-/
set_option linter.unusedSimpArgs false
namespace Verif.Ebml.Scan
open EbmlDoc

theorem load_stable (S : Schema) (env : Env) (a : Bool) (fuel : Nat) (data : Bytes) (mem : Bool) (start root k : Nat)
    (h : load S env a fuel data mem start root k ≠ .fuelOut) :
    load S env a (fuel + 1) data mem start root k = load S env a fuel data mem start root k := by
  unfold load at *
  split <;> rename_i hf
  · rw [hf] at h
    exact (read_stable S env a fuel).1 data mem _ k _ h
  all_goals rfl

theorem load_ends (S : Schema) (env : Env) (a : Bool) (fuel : Nat) (data : Bytes) (mem : Bool) (start root k : Nat)
    (hf : 2 * data.length ≤ fuel) : load S env a fuel data mem start root k ≠ .fuelOut := by
  have ho : Open [⟨root, -1⟩] := ⟨[], ⟨root, -1⟩, rfl, rfl⟩
  unfold load
  split
  · rename_i f h
    have ha := findNext_ahead S a _ data start _ 0 f ho.last h
    have := ha.posData
    have := ha.lt
    exact (read_ends S env a fuel).1 data mem _ k f ho (by omega)
  · simp
  · simp
  · rename_i h
    exact absurd h (findNext_fuel S a data start _ 0)

/-- C105. Whatever the bytes, loading them ends: there is one outcome, and no more than twice as many
nested steps as there are bytes are needed to arrive at it. -/
theorem C105_loading_ends (S : Schema) (env : Env) (allowDummy : Bool) (data : Bytes) (mem : Bool) (start root k : Nat) :
    ∃ out : RRes, out ≠ .fuelOut ∧ ∀ fuel, 2 * data.length ≤ fuel → load S env allowDummy fuel data mem start root k = out := by
  refine ⟨_, load_ends S env allowDummy (2 * data.length) data mem start root k (Nat.le_refl _), ?_⟩
  intro fuel hf
  obtain ⟨d, rfl⟩ : ∃ d, fuel = 2 * data.length + d := ⟨fuel - 2 * data.length, by omega⟩
  induction d with
  | zero => rfl
  | succ d ih =>
    rw [← Nat.add_assoc, load_stable S env allowDummy _ data mem start root k
      (load_ends S env allowDummy _ data mem start root k (by omega)), ih (by omega)]

/-- C106. Whatever the bytes, an element that was loaded is of a type the schema has for its place, its
value is the one decoded from bytes of the stream by the rules of its type, and so on for all its
children; elements of no type are there only if they were asked for. -/
theorem C106_loaded_is_typed (S : Schema) (env : Env) (allowDummy : Bool) (fuel : Nat) (data : Bytes) (mem : Bool)
    (start root k : Nat) (n : Node) (pos : Nat) (h : load S env allowDummy fuel data mem start root k = .ok n pos) :
    TypedAll S env allowDummy data [root] [n] := by
  have ho : Open [⟨root, -1⟩] := ⟨[], ⟨root, -1⟩, rfl, rfl⟩
  unfold load at h
  split at h
  · rename_i f hf
    have ha := findNext_ahead S allowDummy _ data start _ 0 f ho.last hf
    have ht := (read_typed S env allowDummy data fuel).1 data mem _ k f start n pos ho ha (List.prefix_refl _) h
    obtain ⟨j, hj⟩ := findNext_found S allowDummy _ data start (Nat.le_of_lt ha.lt) _ 0 f hf
    have hp : InPlace S allowDummy [root] f := by
      intro r hr
      rcases hj.level r hr with ⟨c, sem, h1, h2, h3⟩ | h1 | ⟨h1, c, h2, h3⟩
      · left
        match j, h1 with
        | 0, h1 => simp at h1; exact ⟨root, sem, rfl, by rw [← h1] at h2; exact h2, h3⟩
      · exact Or.inr (Or.inl h1)
      · right; right
        simp only [List.mem_singleton] at h2
        rw [h2] at h3
        exact ⟨h1, by rw [← h3]; simp⟩
    simp only [List.map_cons, List.map_nil] at ht
    simp only [TypedAll, and_true]
    unfold TypedKind at ht
    cases hk : f.kind with
    | known r => rw [hk] at ht; exact Or.inl ⟨r, hp r hk, ht⟩
    | dummy i => rw [hk] at ht; exact Or.inr ht
  all_goals simp at h

/-- C107. A document still being written, of unknown size and reaching to the end of the stream, is
loaded completely: every child of known size, and the last ones of unknown size with theirs. -/
theorem C107_live_document_loads (S : Schema) (env : Env) (allowDummy : Bool) (k root r : Nat) (doc : Doc) (n : Node)
    (h : LoadsOpen S env k r doc n) (ho : Offers S root (docId doc) r) (before : Bytes) (mem : Bool)
    (fuel : Nat) (hf : (encode doc).length ≤ fuel) :
    load S env allowDummy fuel (before ++ encode doc) mem before.length root k =
      .ok n (before ++ encode doc).length := by
  have hdrop : (before ++ encode doc).drop before.length = encode doc := List.drop_left' rfl
  obtain ⟨id, len, crc, ch, rfl⟩ := loadsOpen_group S env k r doc n h
  have h' := h
  simp only [LoadsOpen] at h'
  obtain ⟨_, _, h1, h8, ⟨m, hm⟩, hcls, _⟩ := h'
  have hfind := findNext_live S allowDummy (before ++ encode (.group id len false crc ch)).length
    (before ++ encode (.group id len false crc ch)) before.length
    ⟨root, -1⟩ [] r id len crc ch [] rfl ho h1 h8 m hm hcls (by rw [hdrop, List.append_nil])
  have hn := need_open S env _ k r n h
  rw [load, hfind]
  exact readElt_live S env allowDummy _ k r n fuel _ mem [⟨root, -1⟩] before.length h (by omega)
    (by intro c hc; simp at hc; rw [hc]) hdrop (by simp)

/-- C107, from tree to tree: a tree whose masters of unknown size are last is written to bytes that load
as the same values in the same order, at the end of any stream. -/
theorem C107_live_round_trip (S : Schema) (env : Env) (d allowDummy : Bool) (k root r : Nat) (e : Elt)
    (hc : Coherent env d e) (hs : (!d && isDefault env e) = false) (hfit : FitsOpen S env d r e) (ho : Offers S root e.base.id r)
    (dep : Nat) (hd : depth e ≤ dep) :
    ∃ bytes, render env d dep e = .ok bytes ∧
      ∀ before mem fuel, bytes.length ≤ fuel →
        load S env allowDummy fuel (before ++ bytes) mem before.length root k =
          .ok (loadedOpen env d k e) (before ++ bytes).length :=
  ⟨_, render_eq env d dep e hd hs hc, fun before mem fuel hf =>
    C107_live_document_loads S env allowDummy k root r _ _ (loads_open S env d e k r hc hfit)
      (by rw [docId_toDoc]; exact ho) before mem fuel hf⟩

mutual
theorem nodeVal_loadedOpen (env : Env) (d : Bool) : ∀ (e : Elt) (k : Nat), nodeVal (loadedOpen env d k e) = some (eltVal env d e)
  | .leaf b dflt v, k => nodeVal_loaded env d _ k
  | .master b crc ch, k => by
    have ih := nodeVals_loadedOpen env d ch (k - 1)
    rw [loadedOpen]
    split
    · exact nodeVal_loaded env d _ k
    · simp only [eltVal]
      by_cases hz : crc = 0
      · simp only [nodeVal, if_pos hz, List.nil_append, ih]
      · simp only [nodeVal, if_neg hz, List.cons_append, List.nil_append, nodeVals, crcNode, ih]
theorem nodeVals_loadedOpen (env : Env) (d : Bool) : ∀ (es : List Elt) (k : Nat),
    nodeVals (loadedOpenList env d k es) = eltVals env d es
  | [], k => by simp only [loadedOpenList, nodeVals, eltVals]
  | e :: es, k => by
    have ih := nodeVals_loadedOpen env d es k
    have ihe := nodeVal_loadedOpen env d e k
    rw [loadedOpenList, eltVals]
    split
    · exact ih
    · simp only [nodeVals, ihe, ih]
end

/-- C107, in terms of values: the value loaded is the value written. -/
theorem C107_live_values (S : Schema) (env : Env) (d allowDummy : Bool) (k root r : Nat) (e : Elt)
    (hc : Coherent env d e) (hs : (!d && isDefault env e) = false) (hfit : FitsOpen S env d r e) (ho : Offers S root e.base.id r) :
    ∃ bytes n pos, render env d (depth e) e = .ok bytes ∧
      load S env allowDummy bytes.length bytes false 0 root k = .ok n pos ∧ nodeVal n = some (eltVal env d e) := by
  obtain ⟨bytes, h1, h2⟩ := C107_live_round_trip S env d allowDummy k root r e hc hs hfit ho _ (Nat.le_refl _)
  have h3 := h2 [] false bytes.length (Nat.le_refl _)
  simp only [List.nil_append, List.length_nil] at h3
  exact ⟨bytes, _, _, h1, h3, nodeVal_loadedOpen env d e k⟩

/-- A live stream: a Segment of unknown size with a checksum, an integer, a closed Cluster, and the
Cluster now being written. -/
def liveTree : Elt :=
  .master ⟨0x18538067, -1, 8, true, true, false⟩ 1
    [.leaf ⟨0x4286, -1, 0, true, true, true⟩ none (.uint 700),
     .master ⟨0x1F43B675, -1, 2, true, true, true⟩ 0 [.leaf ⟨0xE7, -1, 0, true, true, true⟩ none (.sint (-5))],
     .master ⟨0x1F43B675, -1, 0, true, true, false⟩ 0 [.leaf ⟨0xE7, -1, 0, true, true, true⟩ none (.sint 6)]]

example : Coherent miniEnv true liveTree ∧ FitsOpen mini miniEnv true 1 liveTree := by
  constructor
  · simp [liveTree, Coherent, CoherentList, LeafReady, LeafSettled, needs, needsList]
  · simp only [liveTree, Fits, FitsList, FitsOpen, FitsOpenList]
    refine ⟨rfl, ⟨4, ids_mini.1⟩, rfl, trivial, fun _ => ⟨6, offers_mini.2.2.2.2, rfl⟩,
      fun _ => ⟨3, offers_mini.2.2.1, Or.inl ⟨rfl, ⟨2, ids_mini.2.2.1⟩, rfl, by decide +kernel, trivial⟩⟩,
      fun _ => ⟨2, offers_mini.2.1, Or.inl ⟨rfl, ⟨4, ids_mini.2.1⟩, rfl, trivial, by decide +kernel, fun h => absurd rfl h,
        fun _ => ⟨4, offers_mini.2.2.2.1, rfl, ⟨1, ids_mini.2.2.2⟩, rfl, by decide +kernel, ?_⟩, trivial⟩⟩,
      fun _ => ⟨2, offers_mini.2.1, Or.inr ⟨by simp, rfl, ⟨4, ids_mini.2.1⟩, rfl, trivial, fun h => absurd rfl h,
        fun _ => ⟨4, offers_mini.2.2.2.1, Or.inl ⟨rfl, ⟨1, ids_mini.2.2.2⟩, rfl, by decide +kernel, ?_⟩⟩, trivial⟩⟩, trivial⟩
    · intro _; decide +kernel
    · intro _; decide +kernel

/-- What C107 leaves out: if anything follows the document that the finder takes for an element of the
upper levels, it is where the document ends; if what follows is no element (here three zero bytes), the
unknown-size Cluster still loads. -/
example : (load mini miniEnv false 40 [0x18, 0x53, 0x80, 0x67, 0xFF, 0x1F, 0x43, 0xB6, 0x75, 0xFF, 0xE7, 0x81, 5, 0, 0, 0]
    false 0 0 0).width = some 1 := by decide +kernel

theorem cutNode_inHead (S : Schema) (r : Nat) (d : Doc) (h : HeadFacts S r d) (n : Node) (avail : Nat) (ha : avail < headLen d) :
    cutNode d n avail = [] := by
  have := encode_len S r d h
  unfold headLen at ha
  cases d with
  | elem id len p =>
    simp only [docId, docLen, docSize, payload] at ha this
    rw [cutNode, if_neg (by omega), if_pos ha]
  | group id len fin crc ch =>
    simp only [docId, docLen] at ha this
    rw [cutNode, if_neg (by omega), if_pos ha]

theorem cutNode_whole (S : Schema) (r : Nat) (d : Doc) (h : HeadFacts S r d) (n : Node) (avail : Nat) (ha : (encode d).length ≤ avail) :
    cutNode d n avail = [n] := by
  have := encode_len S r d h
  cases d with
  | elem id len p =>
    simp only [docId, docLen, docSize, payload] at this
    rw [cutNode, if_pos (by omega)]
  | group id len fin crc ch => rw [cutNode, if_pos ha]

/-- C108. The first `avail` bytes of a document, however many: everything that is complete in them is
loaded, with the groups that contain it, and nothing else. -/
theorem C108_truncated_document (S : Schema) (env : Env) (allowDummy : Bool) (root r : Nat) (doc : Doc) (n : Node)
    (h : LoadsTo S env 0 r doc n) (ho : Offers S root (docId doc) r) (before : Bytes) (mem : Bool) (avail fuel : Nat)
    (hf : (encode doc).length ≤ fuel) :
    (∀ m, cutNode doc n avail = [m] →
      ∃ pos, load S env allowDummy fuel (before ++ (encode doc).take avail) mem before.length root 0 = .ok m pos) ∧
    (cutNode doc n avail = [] →
      ∃ pos, load S env allowDummy fuel (before ++ (encode doc).take avail) mem before.length root 0 = .err pos) := by
  have hh := loadsTo_head S env 0 r doc n h
  have hn := need_le S env doc 0 r n h
  by_cases hw : (encode doc).length ≤ avail
  · rw [cutNode_whole S r doc hh n avail hw, List.take_of_length_le hw]
    obtain ⟨pos, hp⟩ := C23_document_loads_partial S env allowDummy 0 root r doc n h ho before [] mem fuel hf
    rw [List.append_nil] at hp
    exact ⟨fun m hm => ⟨pos, by rw [hp]; simp at hm; rw [hm]⟩, fun h => (by cases h)⟩
  have hdrop : (before ++ (encode doc).take avail).drop before.length = (encode doc).take avail := List.drop_left' rfl
  have hlen : (before ++ (encode doc).take avail).length = before.length + avail := by
    rw [List.length_append, List.length_take]; omega
  by_cases hh' : avail < headLen doc
  · rw [cutNode_inHead S r doc hh n avail hh']
    have := findNext_inHead S allowDummy (before ++ (encode doc).take avail).length _ before.length avail ⟨root, -1⟩ [] r doc hh
      hdrop hh' (Or.inl rfl)
    refine ⟨fun m hm => (by cases hm), fun _ => ⟨before.length + avail, ?_⟩⟩
    rw [load, this]
  · have := findNext_top S allowDummy (before ++ (encode doc).take avail).length _ before.length _ ⟨root, -1⟩ [] r doc hh ho
      (by rw [hdrop]; exact take_head S r doc hh avail (by omega)) (Or.inl rfl)
    rw [load, this]
    simp only
    rcases readElt_cut S env allowDummy doc r n fuel _ mem [⟨root, -1⟩] before.length avail h (by omega) hdrop hlen (by omega)
      (by omega) with ⟨m, p, h1, h2⟩ | ⟨h1, h2⟩
    · rw [h1, h2]
      exact ⟨fun m' hm => ⟨p, by simp at hm; rw [hm]⟩, fun h => (by cases h)⟩
    · rw [h1, h2]
      exact ⟨fun m' hm => (by cases hm), fun _ => ⟨_, rfl⟩⟩

theorem cutNode_le (d : Doc) (n : Node) (avail : Nat) : (cutNode d n avail).length ≤ 1 := by
  cases d with
  | elem id len p => rw [cutNode]; split; · simp
                     split; · simp
                     split <;> simp
  | group id len fin crc ch => rw [cutNode]; split; · simp
                               split; · simp
                               split; · split <;> simp
                               simp

/-- C108: there is always one of the two outcomes, so a truncated document never crashes the loader. -/
theorem C108_truncated_no_crash (S : Schema) (env : Env) (allowDummy : Bool) (root r : Nat) (doc : Doc) (n : Node)
    (h : LoadsTo S env 0 r doc n) (ho : Offers S root (docId doc) r) (before : Bytes) (mem : Bool) (avail fuel : Nat)
    (hf : (encode doc).length ≤ fuel) :
    load S env allowDummy fuel (before ++ (encode doc).take avail) mem before.length root 0 ≠ .bad := by
  obtain ⟨h1, h2⟩ := C108_truncated_document S env allowDummy root r doc n h ho before mem avail fuel hf
  have hl := cutNode_le doc n avail
  intro hb
  match hc : cutNode doc n avail with
  | [] => obtain ⟨p, hp⟩ := h2 hc; rw [hp] at hb; cases hb
  | [m] => obtain ⟨p, hp⟩ := h1 m hc; rw [hp] at hb; cases hb
  | _ :: _ :: _ => rw [hc] at hl; simp at hl

/-- C108 for what the library wrote: a tree is written, the file is truncated anywhere, and what is
complete is loaded. -/
theorem C108_truncated_file (S : Schema) (env : Env) (d allowDummy : Bool) (root r : Nat) (e : Elt)
    (hc : Coherent env d e) (hs : (!d && isDefault env e) = false) (hfit : Fits S env d r e) (ho : Offers S root e.base.id r) :
    ∃ bytes, render env d (depth e) e = .ok bytes ∧ ∀ avail fuel, bytes.length ≤ fuel →
      (∀ m, cutNode (toDoc env d e) (loaded env d 0 e) avail = [m] →
        ∃ pos, load S env allowDummy fuel (bytes.take avail) false 0 root 0 = .ok m pos) ∧
      (cutNode (toDoc env d e) (loaded env d 0 e) avail = [] →
        ∃ pos, load S env allowDummy fuel (bytes.take avail) false 0 root 0 = .err pos) :=
  ⟨_, render_eq env d _ e (Nat.le_refl _) hs hc, fun avail fuel hf =>
    C108_truncated_document S env allowDummy root r _ _ (loads_toDoc S env d e 0 r hc hfit)
      (by rw [docId_toDoc]; exact ho) [] false avail fuel hf⟩

/-- The tree of C23's example, cut anywhere: how many elements inside the Segment are left. -/
example : (List.range 30).map (fun avail => ((cutNode (toDoc miniEnv true goodTree) (loaded miniEnv true 0 goodTree) avail).map
    (fun n => (kidsOf n).length))) =
  List.replicate 5 [] ++ List.replicate 6 [0] ++ List.replicate 6 [1] ++ List.replicate 8 [2] ++ List.replicate 5 [3] := by
  decide +kernel

/-- C71, a third way to crash: in a memory stream a checksum that is not the first child makes the code
read as many bytes as if it were, from behind it: past the end of the stream, although the document is
complete (ebmlmaster.c:307-323). -/
theorem C71_late_checksum_counterexample :
    ∃ bytes, bytes = encode (.group 0x18538067 1 true false [.elem 0x4286 1 [1], .elem 0xBF 1 [1, 2, 3, 4]]) ∧
      load mini miniEnv false 30 bytes true 0 0 1 = .bad ∧ (load mini miniEnv false 30 bytes false 0 0 1).width = some 1 := by
  refine ⟨_, rfl, RRes.eq_bad _ (by decide +kernel), by decide +kernel⟩

/-- C71, what holds: on any bytes in which no size field can be of the unknown kind, with any schema,
loading touches nothing it must not, if no checksums are verified, or those of the outermost level only
and the stream is not in memory. -/
theorem C71_no_crash_partial (S : Schema) (env : Env) (allowDummy : Bool) (fuel : Nat) (data : Bytes) (mem : Bool)
    (start root k : Nat) (hu : NoUnknown data) (hk : k = 0 ∨ k = 1 ∧ mem = false) :
    load S env allowDummy fuel data mem start root k ≠ .bad := by
  have ho : Open [⟨root, -1⟩] := ⟨[], ⟨root, -1⟩, rfl, rfl⟩
  intro h
  unfold load at h
  split at h
  · rename_i f hf
    refine (read_safe S env allowDummy fuel).1 data mem _ k f start _ ho hu ?_ hf h
    rcases hk with hk | ⟨hk, hm⟩
    · exact Or.inl hk
    · exact Or.inr ⟨hk, Or.inl hm⟩
  · cases h
  · rename_i hb
    exact C25_window_safe S allowDummy _ _ _ _ _ hb
  · cases h

theorem noUnknown_of_bytes (data : Bytes) (h : ∀ b ∈ data, b ≠ 0xFF ∧ b ≠ 0x7F ∧ b ≠ 0x3F ∧ b ≠ 0x1F ∧ b ≠ 0x0F ∧ b ≠ 7 ∧ b ≠ 3 ∧ b ≠ 1) :
    NoUnknown data := by
  intro w hw hl hv
  cases w with
  | nil => simp [readCodedSize] at hl
  | cons b rest =>
    have hb := h b (hw.subset List.mem_cons_self)
    cases hf : findMarker b (rest.length + 1) 8 with
    | none => simp [readCodedSize, hf] at hl
    | some i =>
      obtain ⟨h1, h2, h3, h4⟩ := (findMarker_iff _ _ _).1 hf
      rw [readCodedSize_shape _ _ _ hf] at hv
      simp only at hv
      have hu := unknownMark_eq (i + 1) (by omega) (by omega)
      rw [Nat.add_sub_cancel] at hu
      rw [hu] at hv
      have hlt : (rest.take i).length = i := by simp; omega
      have hbl := beNat_lt (rest.take i)
      rw [hlt] at hbl
      generalize beNat (rest.take i) = x at *
      have hne : ∀ n : UInt8, b ≠ n → b.toNat ≠ n.toNat := fun n hn he => hn (UInt8.toNat_inj.mp he)
      have g1 := hne _ hb.1; have g2 := hne _ hb.2.1; have g3 := hne _ hb.2.2.1; have g4 := hne _ hb.2.2.2.1
      have g5 := hne _ hb.2.2.2.2.1; have g6 := hne _ hb.2.2.2.2.2.1; have g7 := hne _ hb.2.2.2.2.2.2.1
      have g8 := hne _ hb.2.2.2.2.2.2.2
      simp only [UInt8.reduceToNat] at g1 g2 g3 g4 g5 g6 g7 g8
      have hi : i = 0 ∨ i = 1 ∨ i = 2 ∨ i = 3 ∨ i = 4 ∨ i = 5 ∨ i = 6 ∨ i = 7 := by omega
      rcases hi with hi | hi | hi | hi | hi | hi | hi | hi <;> subst hi <;>
        simp only [Nat.reduceMul, Nat.reducePow, Nat.reduceSub, Nat.reduceAdd] at * <;> omega

/-- Corrupt bytes meeting the hypothesis: a Segment with rubbish, truncated. -/
example : NoUnknown [0x18, 0x53, 0x80, 0x67, 0x90, 0x85, 0x90, 0, 0xBF, 0x84, 2, 9, 0x42, 0x86, 0x88] :=
  noUnknown_of_bytes _ (by decide)

end Verif.Ebml.Scan
