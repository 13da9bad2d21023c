import Verif.Ebml.ParseTree
/-!
Property theorems C23 and C71: loading what was written.
-/
set_option linter.unusedSimpArgs false
namespace Verif.Ebml.Scan
open EbmlDoc

/-- The value of a tree, all a user of the tree sees: IDs, values and order. -/
inductive Val where
  | leaf (id : Nat) (v : Leaf)
  | tree (id : Nat) (children : List Val)

mutual
/-- Value of a tree about to be written (children that are not saved are left out). -/
def eltVal (env : Env) (d : Bool) : Elt → Val
  | .leaf b _ v => .leaf b.id (loadedLeaf v)
  | .master b _ ch => .tree b.id (eltVals env d ch)
def eltVals (env : Env) (d : Bool) : List Elt → List Val
  | [] => []
  | e :: es => if !d && isDefault env e then eltVals env d es else eltVal env d e :: eltVals env d es
end

mutual
/-- Value of a loaded tree, without checksum elements. -/
def nodeVal : Node → Option Val
  | .leaf b v => some (.leaf b.id v)
  | .crc _ _ => none
  | .dummy _ _ => none
  | .master b _ ch => some (.tree b.id (nodeVals ch))
def nodeVals : List Node → List Val
  | [] => []
  | n :: ns => match nodeVal n with
    | some v => v :: nodeVals ns
    | none => nodeVals ns
end

mutual
/-- The tree follows the schema: IDs, classes and nesting. -/
def Conforms (S : Schema) (r : Nat) : Elt → Prop
  | .leaf b _ v => (S.ctx r).id = b.id ∧ (∃ n, WellFormedId b.id n) ∧ (S.ctx r).cls = leafCls v
  | .master b _ ch => (S.ctx r).id = b.id ∧ (∃ n, WellFormedId b.id n) ∧ (S.ctx r).cls = .master ∧ ConformsList S r ch
def ConformsList (S : Schema) (c : Nat) : List Elt → Prop
  | [] => True
  | e :: es => (∃ r, Offers S c e.base.id r ∧ Conforms S r e) ∧ ConformsList S c es
end

/-- C23 as hoped for: whatever conforming tree is written, loading the bytes gives its value. -/
def RoundTrip : Prop :=
  ∀ (S : Schema) (env : Env) (d : Bool) (root r : Nat) (e : Elt), Coherent env d e → (!d && isDefault env e) = false →
    Offers S root e.base.id r → Conforms S r e →
    ∀ depth bytes, render env d depth e = .ok bytes →
    ∀ fuel, bytes.length ≤ fuel →
      ∃ n pos, load S env false fuel bytes false 0 root 0 = .ok n pos ∧ nodeVal n = some (eltVal env d e)

/-- A small Matroska-like schema: Segment with Clusters, and Clusters with a timestamp. -/
def mini : Schema where
  ctx := fun
    | 0 => ⟨0xFF, .master, some [1]⟩
    | 1 => ⟨0x18538067, .master, some [2, 3]⟩
    | 2 => ⟨0x1F43B675, .master, some [4]⟩
    | 3 => ⟨0x4286, .uint, none⟩
    | 4 => ⟨0xE7, .sint, none⟩
    | 5 => ⟨0xEC, .void, none⟩
    | _ => ⟨0xBF, .crc, none⟩
  globals := [5, 6]

/-- An environment with signed `char` and exact float conversions. -/
def miniEnv : Env := ⟨fun v => v.extractLsb' 0 32, fun v => v.zeroExtend 64, (· == ·), true, 0⟩

/-- A Segment of known size with a Cluster of unknown size followed by an integer. -/
def sibling : Elt :=
  .master ⟨0x18538067, -1, 0, true, true, true⟩ 0
    [.master ⟨0x1F43B675, -1, 0, true, true, false⟩ 0 [.leaf ⟨0xE7, -1, 0, true, true, true⟩ none (.sint 5)],
     .leaf ⟨0x4286, -1, 0, true, true, true⟩ none (.uint 7)]

theorem offers_mini : Offers mini 0 0x18538067 1 ∧ Offers mini 1 0x1F43B675 2 ∧ Offers mini 1 0x4286 3 ∧ Offers mini 2 0xE7 4 ∧
    Offers mini 1 0xBF 6 :=
  ⟨⟨rfl, _, rfl, Or.inl ⟨by decide, by decide⟩⟩, ⟨rfl, _, rfl, Or.inl ⟨by decide, by decide⟩⟩,
   ⟨rfl, _, rfl, Or.inl ⟨by decide, by decide⟩⟩, ⟨rfl, _, rfl, Or.inl ⟨by decide, by decide⟩⟩,
   ⟨rfl, _, rfl, Or.inr ⟨by decide, by decide, by decide⟩⟩⟩

theorem ids_mini : WellFormedId 0x18538067 4 ∧ WellFormedId 0x1F43B675 4 ∧ WellFormedId 0x4286 2 ∧ WellFormedId 0xE7 1 := by
  unfold WellFormedId; decide

theorem sibling_ok : Coherent miniEnv true sibling ∧ Conforms mini 1 sibling := by
  simp only [sibling, Coherent, CoherentList, Conforms, ConformsList, LeafReady, LeafSettled, needs, needsList]
  refine ⟨?_, ?_⟩
  · simp
  · exact ⟨rfl, ⟨4, ids_mini.1⟩, rfl, ⟨2, offers_mini.2.1, rfl, ⟨4, ids_mini.2.1⟩, rfl,
      ⟨4, offers_mini.2.2.2.1, rfl, ⟨1, ids_mini.2.2.2⟩, rfl⟩, trivial⟩, ⟨3, offers_mini.2.2.1, rfl, ⟨2, ids_mini.2.2.1⟩, rfl⟩, trivial⟩

/-- The bytes of `sibling`. -/
def siblingBytes : Bytes :=
  [0x18, 0x53, 0x80, 0x67, 0x8C, 0x1F, 0x43, 0xB6, 0x75, 0xFF, 0xE7, 0x81, 5, 0x42, 0x86, 0x81, 7]

theorem sibling_render : render miniEnv true 3 sibling = .ok siblingBytes := by decide +kernel

/-- Number of children of a value. -/
def Val.width : Val → Nat
  | .leaf _ _ => 0
  | .tree _ ch => ch.length

/-- Number of children of what was loaded. -/
def RRes.width : RRes → Option Nat
  | .ok n _ => (nodeVal n).map Val.width
  | _ => none

/-- What the library makes of it: one of the two children is gone. -/
theorem sibling_load : (load mini miniEnv false 17 siblingBytes false 0 0 0).width = some 1 := by decide +kernel

/-- C23 fails: an element behind a master of unknown size is lost when the document is loaded. -/
theorem C23_round_trip_counterexample : ¬ RoundTrip := by
  intro h
  obtain ⟨n, pos, h1, h2⟩ := h mini miniEnv true 0 1 sibling sibling_ok.1 rfl offers_mini.1 sibling_ok.2 3 _ sibling_render
    17 (by decide)
  have hw := sibling_load
  rw [h1, RRes.width, h2] at hw
  exact absurd hw (by decide +kernel)

/-- Is it a crash. -/
def RRes.isBad : RRes → Bool
  | .bad => true
  | _ => false

theorem RRes.eq_bad (r : RRes) (h : r.isBad = true) : r = .bad := by cases r <;> first | rfl | simp [RRes.isBad] at h

/-- The same document without the integer: a Segment of known size whose last child is a Cluster of
unknown size, at the end of the stream. -/
def lastUnknown : Bytes := [0x18, 0x53, 0x80, 0x67, 0x88, 0x1F, 0x43, 0xB6, 0x75, 0xFF, 0xE7, 0x81, 5]

/-- C71 as hoped for: loading never touches memory it must not. -/
def NeverCrashes : Prop :=
  ∀ (S : Schema) (env : Env) (allowDummy : Bool) (fuel : Nat) (data : Bytes) (mem : Bool) (start root k : Nat),
    load S env allowDummy fuel data mem start root k ≠ .bad

/-- C71 fails: on the document above, which is valid EBML and which the library writes, the loop over
the children of the Cluster ends without an element but with upper levels reported, and the code goes
on to use the element (ebmlmaster.c:411-415). -/
theorem C71_never_crashes_counterexample :
    (∃ e, Coherent miniEnv true e ∧ Conforms mini 1 e ∧ render miniEnv true 3 e = .ok lastUnknown) ∧
    load mini miniEnv false 13 lastUnknown false 0 0 0 = .bad ∧ ¬ NeverCrashes := by
  have hbad : load mini miniEnv false 13 lastUnknown false 0 0 0 = .bad := RRes.eq_bad _ (by decide +kernel)
  refine ⟨⟨.master ⟨0x18538067, -1, 0, true, true, true⟩ 0
    [.master ⟨0x1F43B675, -1, 0, true, true, false⟩ 0 [.leaf ⟨0xE7, -1, 0, true, true, true⟩ none (.sint 5)]], ?_, ?_, ?_⟩,
    hbad, fun h => h _ _ _ _ _ _ _ _ _ hbad⟩
  · simp [Coherent, CoherentList, LeafReady, LeafSettled, needs, needsList]
  · exact ⟨rfl, ⟨4, ids_mini.1⟩, rfl, ⟨2, offers_mini.2.1, rfl, ⟨4, ids_mini.2.1⟩, rfl,
      ⟨4, offers_mini.2.2.2.1, rfl, ⟨1, ids_mini.2.2.2⟩, rfl⟩, trivial⟩, trivial⟩
  · decide +kernel

/-- Second way to crash: in a memory stream the data under a checksum is taken from the announced
size, also when the stream is shorter (ebmlmaster.c:314-323). -/
theorem C71_checksum_counterexample :
    load mini miniEnv false 20 [0x18, 0x53, 0x80, 0x67, 0x90, 0xBF, 0x84, 1, 2, 3, 4, 0x42, 0x86, 0x81, 1] true 0 0 1 = .bad :=
  RRes.eq_bad _ (by decide +kernel)

/-- C23 for documents, whoever wrote them: every conformant document all of whose sizes are known is
loaded as `LoadsTo` says, from any position of any stream, whatever follows, whether dummies are
allowed or not, with any number of checksum levels to verify, using no more steps in sequence than it
has bytes; and the stream is left right behind the document, so that what follows is found next. -/
theorem C23_document_position_partial (S : Schema) (env : Env) (allowDummy : Bool) (k root r : Nat) (doc : Doc) (n : Node)
    (h : LoadsTo S env k r doc n) (ho : Offers S root (docId doc) r) (before after : Bytes) (mem : Bool)
    (fuel : Nat) (hf : (encode doc).length ≤ fuel) :
    load S env allowDummy fuel (before ++ encode doc ++ after) mem before.length root k =
      .ok n (before ++ encode doc).length := by
  have hdrop : (before ++ encode doc ++ after).drop before.length = encode doc ++ after := by
    rw [List.append_assoc]; exact List.drop_left' rfl
  have hfind := findNext_doc S allowDummy (before ++ encode doc ++ after).length (before ++ encode doc ++ after) before.length
    after ⟨root, -1⟩ [] r doc (loadsTo_head S env k r doc n h) ho hdrop (Or.inl rfl)
  have hn := need_le S env doc k r n h
  have hp := readElt_at S env allowDummy doc k r n fuel (before ++ encode doc ++ after) mem [⟨root, -1⟩] before.length
    after h (by omega) hdrop
  rw [load, hfind, List.length_append]
  exact hp

theorem C23_document_loads_partial (S : Schema) (env : Env) (allowDummy : Bool) (k root r : Nat) (doc : Doc) (n : Node)
    (h : LoadsTo S env k r doc n) (ho : Offers S root (docId doc) r) (before after : Bytes) (mem : Bool)
    (fuel : Nat) (hf : (encode doc).length ≤ fuel) :
    ∃ pos, load S env allowDummy fuel (before ++ encode doc ++ after) mem before.length root k = .ok n pos :=
  ⟨_, C23_document_position_partial S env allowDummy k root r doc n h ho before after mem fuel hf⟩

/-- C23, what holds. Every tree in a coherent state (of any depth and width, with or without checksums,
with or without default values written) that fits the schema, without masters of unknown size and with
values their payload keeps, is rendered to bytes that load as `loaded`: the same IDs, values and order,
size fields and checksums verified. -/
theorem C23_round_trip_partial (S : Schema) (env : Env) (d allowDummy : Bool) (k root r : Nat) (e : Elt)
    (hc : Coherent env d e) (hs : (!d && isDefault env e) = false) (hfit : Fits S env d r e) (ho : Offers S root e.base.id r)
    (dep : Nat) (hd : depth e ≤ dep) :
    ∃ bytes, render env d dep e = .ok bytes ∧
      ∀ before after mem fuel, bytes.length ≤ fuel →
        ∃ pos, load S env allowDummy fuel (before ++ bytes ++ after) mem before.length root k = .ok (loaded env d k e) pos :=
  ⟨_, render_eq env d dep e hd hs hc, fun before after mem fuel hf =>
    C23_document_loads_partial S env allowDummy k root r _ _ (loads_toDoc S env d e k r hc hfit)
      (by rw [docId_toDoc]; exact ho) before after mem fuel hf⟩

mutual
theorem nodeVal_loaded (env : Env) (d : Bool) : ∀ (e : Elt) (k : Nat), nodeVal (loaded env d k e) = some (eltVal env d e)
  | .leaf b dflt v, k => by simp only [loaded, nodeVal, eltVal]
  | .master b crc ch, k => by
    have ih := nodeVals_loaded env d ch (k - 1)
    simp only [loaded, eltVal]
    split
    · simp only [nodeVal, ih]
    · split
      · simp only [nodeVal, nodeVals, crcNode, ih]
      · simp only [nodeVal, ih]
theorem nodeVals_loaded (env : Env) (d : Bool) : ∀ (es : List Elt) (k : Nat),
    nodeVals (loadedList env d k es) = eltVals env d es
  | [], k => by simp only [loadedList, nodeVals, eltVals]
  | e :: es, k => by
    have ih := nodeVals_loaded env d es k
    have ihe := nodeVal_loaded env d e k
    rw [loadedList, eltVals]
    split
    · exact ih
    · simp only [nodeVals, ihe, ih]
end

/-- C23, in terms of values only: under the same hypotheses the value loaded is the value written. -/
theorem C23_values_partial (S : Schema) (env : Env) (d allowDummy : Bool) (k root r : Nat) (e : Elt)
    (hc : Coherent env d e) (hs : (!d && isDefault env e) = false) (hfit : Fits S env d r e) (ho : Offers S root e.base.id r) :
    ∃ bytes n pos, render env d (depth e) e = .ok bytes ∧
      load S env allowDummy bytes.length bytes false 0 root k = .ok n pos ∧ nodeVal n = some (eltVal env d e) := by
  obtain ⟨bytes, h1, h2⟩ := C23_round_trip_partial S env d allowDummy k root r e hc hs hfit ho _ (Nat.le_refl _)
  obtain ⟨pos, h3⟩ := h2 [] [] false bytes.length (Nat.le_refl _)
  simp only [List.nil_append, List.append_nil, List.length_nil] at h3
  exact ⟨bytes, _, pos, h1, h3, nodeVal_loaded env d e k⟩

/-- A tree meeting the hypotheses: a Segment with a checksum, holding a Cluster and an integer. -/
def goodTree : Elt :=
  .master ⟨0x18538067, -1, 0, true, true, true⟩ 1
    [.master ⟨0x1F43B675, -1, 2, true, true, true⟩ 0 [.leaf ⟨0xE7, -1, 0, true, true, true⟩ none (.sint (-5))],
     .leaf ⟨0x4286, -1, 0, true, true, true⟩ none (.uint 700)]

example : Coherent miniEnv true goodTree ∧ Fits mini miniEnv true 1 goodTree := by
  constructor
  · simp [goodTree, Coherent, CoherentList, LeafReady, LeafSettled, needs, needsList]
  · simp only [goodTree, Fits, FitsList]
    refine ⟨rfl, ⟨4, ids_mini.1⟩, rfl, trivial, by decide +kernel, fun _ => ⟨⟨_, List.mem_cons_self, rfl⟩, 6, offers_mini.2.2.2.2, rfl⟩,
      fun _ => ⟨2, offers_mini.2.1, rfl, ⟨4, ids_mini.2.1⟩, rfl, trivial, by decide +kernel, fun h => absurd rfl h,
        fun _ => ⟨4, offers_mini.2.2.2.1, rfl, ⟨1, ids_mini.2.2.2⟩, rfl, by decide +kernel, ?_⟩, trivial⟩,
      fun _ => ⟨3, offers_mini.2.2.1, rfl, ⟨2, ids_mini.2.2.1⟩, rfl, by decide +kernel, trivial⟩, trivial⟩
    intro _
    decide +kernel

end Verif.Ebml.Scan
