import Verif.Ebml.LoadSiblings
import Verif.Props.Load
import Verif.Props.MkvSchema
/-!
Property theorems C226: what loading makes of a live recording with several Clusters of unknown size.
-/
set_option linter.unusedSimpArgs false
namespace Verif.Ebml.Scan
open EbmlDoc

/-- A recording: a Segment of unknown size with elements of known size followed by Clusters of unknown size. -/
structure Live where
  len : Nat
  pre : List Doc
  clusters : List (Open1 × List Node)

/-- Its bytes. -/
def Live.doc (sid cid : Nat) (l : Live) : Doc := .group sid l.len false false (l.pre ++ l.clusters.map fun c => c.1.doc cid)

/-- Everything in it is well-formed: the Segment, what comes first and loads as `ns`, and the Clusters, whose ID belongs to the
Segment and does not occur within a Cluster. -/
structure Live.Ok (S : Schema) (env : Env) (k root sg rc sid cid : Nat) (l : Live) (ns : List Node) : Prop where
  offers : Offers S root sid sg
  sgId : ∃ m, WellFormedId sid m
  sgCls : (S.ctx sg).cls = .master
  len1 : 1 ≤ l.len
  len8 : l.len ≤ 8
  pre : LoadsToList S env (k - 1) sg l.pre ns
  ends : Ends S rc sg cid rc
  clId : ∃ m, WellFormedId cid m
  clCls : (S.ctx rc).cls = .master
  clusters : ∀ c ∈ l.clusters, c.1.Ok S env (k - 1) rc c.2

/-- The Segment with some of the Clusters. -/
def Live.node (sid cid : Nat) (l : Live) (ns : List Node) (cs : List (Open1 × List Node)) : Node :=
  .master ⟨sid, -1, l.len, true, true, false⟩ 0 (ns ++ cs.map fun c => c.1.node cid c.2)

/-- C226 as a user wants it: everything is loaded. -/
def LoadsAll : Prop :=
  ∀ (S : Schema) (env : Env) (a : Bool) (k root sg rc sid cid : Nat) (l : Live) (ns : List Node), l.Ok S env k root sg rc sid cid ns →
    load S env a (encode (l.doc sid cid)).length (encode (l.doc sid cid)) false 0 root k =
      .ok (l.node sid cid ns l.clusters) (encode (l.doc sid cid)).length

theorem encodeList_two (as bs : List Doc) : encodeList (as ++ bs) = encodeList as ++ encodeList bs := by
  induction as with
  | nil => rfl
  | cons x xs ih => rw [List.cons_append, encodeList_cons, encodeList_cons, ih, List.append_assoc]

theorem need_clusters (S : Schema) (env : Env) (k rc id : Nat) (hid : 1 ≤ (idField id).length) : ∀ cs : List (Open1 × List Node), (∀ c ∈ cs, c.1.Ok S env k rc c.2) →
    needList (cs.map fun c => c.1.doc id) ≤ (encodeList (cs.map fun c => c.1.doc id)).length
  | [], _ => by simp [needList]
  | c :: cs, h => by
    have ih := need_clusters S env k rc id hid cs (fun x hx => h x (List.mem_cons_of_mem _ hx))
    obtain ⟨h1, _, h3⟩ := h c List.mem_cons_self
    have h4 := needList_le S env c.1.ch (k - 1) rc c.2 h3
    have h5 := open1_length id c.1
    have h6 : need (c.1.doc id) = 1 + needList c.1.ch := by simp [Open1.doc, need]
    rw [List.map_cons, encodeList_cons, List.length_append]
    simp only [needList]
    omega

theorem needList_append (as bs : List Doc) : needList (as ++ bs) = needList as + needList bs := by
  induction as with
  | nil => simp [needList]
  | cons x xs ih => simp only [List.cons_append, needList, ih]; omega

/-- C226, what holds instead: of such a recording the first, third, fifth, ... Cluster are loaded and the others are not, if
nothing in the Clusters passed over looks like an element of the Segment. Missing: those, where it depends on the bytes. -/
theorem C226_every_other_partial (S : Schema) (env : Env) (a : Bool) (k root sg rc sid cid : Nat) (l : Live) (ns : List Node)
    (h : l.Ok S env k root sg rc sid cid ns) (before : Bytes) (mem : Bool) (fuel : Nat) (hf : (encode (l.doc sid cid)).length ≤ fuel)
    (hq : Quiet S a (before ++ encode (l.doc sid cid)) [⟨sg, -1⟩, ⟨root, -1⟩] cid
      (before.length + (idField sid).length + l.len + (encodeList l.pre).length) (l.clusters.map (·.1))) :
    load S env a fuel (before ++ encode (l.doc sid cid)) mem before.length root k =
      .ok (l.node sid cid ns (everyOther l.clusters)) (before ++ encode (l.doc sid cid)).length := by
  obtain ⟨ho, ⟨m, hm⟩, hcls, h1, h8, hpre, he, ⟨mc, hmc⟩, hccls, hcl⟩ := h
  have hdrop : (before ++ encode (l.doc sid cid)).drop before.length = encode (l.doc sid cid) := List.drop_left' rfl
  generalize hdata : before ++ encode (l.doc sid cid) = data at *
  have hlen : data.length = before.length + (encode (l.doc sid cid)).length := by rw [← hdata, List.length_append]
  have hdl : (encode (l.doc sid cid)).length = (idField sid).length + l.len + (encodeList l.pre).length +
      (encodeList (l.clusters.map fun c => c.1.doc cid)).length := by
    rw [Live.doc, encode_group]
    simp only [Bool.false_eq_true, if_false, payload, List.nil_append, List.length_append, unknownField_length, encodeList_two]
    omega
  have hfind := findNext_live S a data.length data before.length ⟨root, -1⟩ [] sg sid l.len false
    (l.pre ++ l.clusters.map fun c => c.1.doc cid) [] rfl ho h1 h8 m hm hcls (by rw [hdrop, List.append_nil]; rfl)
  have hneed1 := needList_le S env l.pre (k - 1) sg ns hpre
  have hneed2 := need_clusters S env (k - 1) rc cid (by rw [idField_len_wf cid mc hmc]; exact hmc.1) l.clusters hcl
  have hidl : 1 ≤ (idField sid).length := by rw [idField_len_wf sid m hm]; exact hm.1
  rw [load, hfind]
  simp only
  obtain ⟨fuel, rfl⟩ : ∃ x, fuel = x + 1 := ⟨fuel - 1, by omega⟩
  have hpd := liveHead_posData sg before.length (l.doc sid cid)
  simp only [Live.doc, docId, docLen] at hpd
  have hdrop2 : data.drop (before.length + (idField sid).length + l.len) =
      encodeList l.pre ++ encodeList (l.clusters.map fun c => c.1.doc cid) := by
    rw [Nat.add_assoc, ← List.drop_drop, hdrop, Live.doc, encode_group]
    simp only [Bool.false_eq_true, if_false, payload, List.nil_append, encodeList_two]
    exact List.drop_left' (by rw [List.length_append, unknownField_length])
  have hb : (liveHead sg before.length (.group sid l.len false false (l.pre ++ l.clusters.map fun c => c.1.doc cid))).base S true =
      ⟨sid, -1, l.len, true, true, false⟩ := by
    have : ((l.len : Int) % 256).toNat = l.len := by omega
    simp only [Found.base, liveHead, Found.id, Kind.cls, docLen, this, ho.1, hcls]
    rfl
  generalize hg : liveHead sg before.length (.group sid l.len false false (l.pre ++ l.clusters.map fun c => c.1.doc cid)) = f at *
  have hkind : f.kind = .known sg := by rw [← hg]; rfl
  have hfin : f.finite = false := by rw [← hg]; rfl
  have hend : f.endPos = -1 := by rw [← hg]; rfl
  rw [readElt, hkind]
  simp only [if_pos hcls]
  rw [if_pos (by simp [hfin]), hpd, hend]
  obtain ⟨s', fuel', e1, e2, e3, e4, e5⟩ := readLoop_pre S env a k sg [⟨root, -1⟩] f (-1)
    (encodeList (l.clusters.map fun c => c.1.doc cid)) hfin l.pre ns fuel
    ⟨data, mem, before.length + (idField sid).length + l.len, true, none, f.dataSize, []⟩
    (before.length + (idField sid).length + l.len) hpre (by omega) rfl hdrop2 (Or.inl rfl)
  simp only at e5 e2 e4
  rw [e5]
  have hnoend : NoEnd [⟨sg, -1⟩, ⟨root, -1⟩] := by intro x hx; simp at hx; rcases hx with rfl | rfl <;> rfl
  rw [readLoop_open S env a k rc sg cid mc hmc he hccls [⟨root, -1⟩] hnoend f hfin l.clusters fuel' s'
    (before.length + (idField sid).length + l.len + (encodeList l.pre).length) hcl (by rw [e2]; exact hq) (by omega) e3
    (by rw [e2, ← List.drop_drop, hdrop2, List.drop_left' rfl]) (by rw [e2]; omega), e4, e2, hb]
  rfl

/-- Two Clusters of unknown size behind an integer. -/
def twoClusters : Live :=
  ⟨1, [.elem 0x4286 1 [7]], [(⟨1, [.elem 0xE7 1 [5]]⟩, [.leaf ⟨0xE7, 1, 1, true, true, true⟩ (.sint 5)]),
    (⟨1, [.elem 0xE7 1 [6]]⟩, [.leaf ⟨0xE7, 1, 1, true, true, true⟩ (.sint 6)])]⟩

/-- What is loaded in front of them. -/
def twoPre : List Node := [.leaf ⟨0x4286, 1, 1, true, true, true⟩ (.uint 7)]

theorem ends_mini : Ends mini 2 1 0x1F43B675 2 :=
  ⟨rfl, ⟨_, rfl, by decide⟩, by decide, _, rfl, by decide, by decide⟩

theorem twoClusters_ok (k : Nat) : twoClusters.Ok mini miniEnv k 0 1 2 0x18538067 0x1F43B675 twoPre where
  offers := offers_mini.1
  sgId := ⟨4, ids_mini.1⟩
  sgCls := rfl
  len1 := by decide
  len8 := by decide
  pre := by
    simp only [twoClusters, twoPre, LoadsToList, LoadsTo]
    exact ⟨3, _, _, offers_mini.2.2.1, ⟨rfl, ⟨by decide, by decide, by decide, 2, ids_mini.2.2.1⟩, by decide +kernel,
      ⟨.uint 7, by decide +kernel, rfl⟩⟩, rfl, rfl⟩
  ends := ends_mini
  clId := ⟨4, ids_mini.2.1⟩
  clCls := rfl
  clusters := by
    intro c hc
    simp only [twoClusters, List.mem_cons, List.not_mem_nil, or_false] at hc
    rcases hc with rfl | rfl
    · refine ⟨by decide, by decide, ?_⟩
      simp only [LoadsToList, LoadsTo]
      exact ⟨4, _, _, offers_mini.2.2.2.1, ⟨rfl, ⟨by decide, by decide, by decide, 1, ids_mini.2.2.2⟩, by decide +kernel,
        ⟨.sint 5, by decide +kernel, rfl⟩⟩, rfl, rfl⟩
    · refine ⟨by decide, by decide, ?_⟩
      simp only [LoadsToList, LoadsTo]
      exact ⟨4, _, _, offers_mini.2.2.2.1, ⟨rfl, ⟨by decide, by decide, by decide, 1, ids_mini.2.2.2⟩, by decide +kernel,
        ⟨.sint 6, by decide +kernel, rfl⟩⟩, rfl, rfl⟩

theorem twoClusters_width : (load mini miniEnv false (encode (twoClusters.doc 0x18538067 0x1F43B675)).length
    (encode (twoClusters.doc 0x18538067 0x1F43B675)) false 0 0 0).width = some 2 := by decide +kernel

/-- C226 fails: the second of two Clusters of unknown size is lost. -/
theorem C226_counterexample : ¬ LoadsAll := by
  intro h
  have h1 := h mini miniEnv false 0 0 1 2 0x18538067 0x1F43B675 twoClusters twoPre (twoClusters_ok 0)
  have hw := twoClusters_width
  rw [h1, RRes.width] at hw
  exact absurd hw (by decide +kernel)

/-- The hypotheses of `C226_every_other_partial` are met by the same recording. -/
example : Quiet mini false (encode (twoClusters.doc 0x18538067 0x1F43B675)) [⟨1, -1⟩, ⟨0, -1⟩] 0x1F43B675
    (4 + twoClusters.len + (encodeList twoClusters.pre).length) (twoClusters.clusters.map (·.1)) := by
  refine ⟨?_, trivial⟩
  rfl

/-- In the Matroska table (63 is the Cluster, 269 the Segment) the Cluster's ID ends a Cluster of unknown size. -/
theorem C226_matroska_ends : Ends Master.mkvScan 63 269 0x1F43B675 63 := by
  refine ⟨by decide +kernel, ⟨_, rfl, by decide +kernel⟩, by decide +kernel, _, rfl, by decide +kernel, by decide +kernel⟩

end Verif.Ebml.Scan
