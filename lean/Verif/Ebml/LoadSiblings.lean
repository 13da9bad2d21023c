import Verif.Ebml.LoadLive
/-! Reading masters of unknown size that follow each other: what the loader makes of a live recording. -/
set_option linter.unusedSimpArgs false
namespace Verif.Ebml.Scan
open EbmlDoc

/-- An ID of the table of `p` that does not occur inside `c`: it ends an element `c` of unknown size. -/
def Ends (S : Schema) (c p id r : Nat) : Prop :=
  (S.ctx r).id = id ∧ (∃ sem, (S.ctx c).sem = some sem ∧ ∀ x ∈ sem, (S.ctx x).id ≠ id) ∧
  (∀ x ∈ S.globals, (S.ctx x).id ≠ id) ∧ ∃ sem, (S.ctx p).sem = some sem ∧ r ∈ sem ∧ ∀ x ∈ sem, (S.ctx x).id = id → x = r

theorem Ends.offers {S : Schema} {c p id r : Nat} (h : Ends S c p id r) : Offers S p id r := by
  obtain ⟨h1, _, _, sem, h2, h3, h4⟩ := h
  exact ⟨h1, sem, h2, Or.inl ⟨h3, h4⟩⟩

theorem createUsing_ends (S : Schema) (w : Bytes) (n : Nat) (a : Bool) (c p : PCtx) (up : List PCtx) (id r : Nat)
    (hw : idFromBuffer w n = id) (h : Ends S c.ref p.ref id r) :
    createUsing S w n a (c :: p :: up) 0 = some (.known r, 1) := by
  obtain ⟨h1, ⟨sem, hs, hn⟩, hg, sem', hs', hm, hu⟩ := h
  have e1 : sem.find? (fun r => (S.ctx r).id == id) = none := by
    rw [List.find?_eq_none]; intro x hx; simpa using hn x hx
  have e2 : S.globals.find? (fun r => (S.ctx r).id == id) = none := by
    rw [List.find?_eq_none]; intro x hx; simpa using hg x hx
  rw [createUsing.eq_def]
  simp only [hs, hw, e1, e2]
  rw [createUsing.eq_def]
  simp only [hs', hw, find_unique S sem' id r h1 hm hu]
  rfl

/-- The head of a group of unknown size met inside an element it ends. -/
theorem findNext_ends (S : Schema) (a : Bool) (F : Nat) (data : Bytes) (start : Nat) (c p : PCtx) (up : List PCtx)
    (r id len : Nat) (crc : Bool) (ch : List Doc) (rest : Bytes) (hend : c.endPos = -1) (he : Ends S c.ref p.ref id r)
    (h1 : 1 ≤ len) (h8 : len ≤ 8) (m : Nat) (hm : WellFormedId id m) (hcls : (S.ctx r).cls = .master)
    (hdata : data.drop start = encode (.group id len false crc ch) ++ rest) :
    ∃ g, findNext S a (F + 1) data start (c :: p :: up) 0 = .found g ∧ g.levels = 1 ∧ g.pos = start := by
  have hread := read_unknownField len h1 h8
  obtain ⟨_, _, _, _, _, _, hfrom⟩ := idField_head id m hm
  have hcr := createUsing_ends S (idField id ++ unknownField len) m a c p up id r (hfrom _) he
  have := findNext_head S a F data start c (p :: up) 0 id m (unknownField len) (payload (.group id len false crc ch) ++ rest) hm
    (by rw [hread, unknownField_length]) (by rw [unknownField_length]; omega)
    (by rw [hdata, encode_group]; simp) (Or.inl hend) (fun _ => Or.inl hend) r 1 hcr (by rw [hcls]; decide)
    (by rw [hcls]; rfl)
  exact ⟨_, this, rfl, rfl⟩

/-- Children of known size in front of whatever follows. -/
theorem readLoop_pre (S : Schema) (env : Env) (a : Bool) (k r : Nat) (ctx : List PCtx) (f : Found) (e : Int) (rest : Bytes)
    (hfin : f.finite = false) : ∀ (ds : List Doc) (ns : List Node) (fuel : Nat) (s : LSt) (q : Nat),
    LoadsToList S env (k - 1) r ds ns → needList ds ≤ fuel → s.crc = none → s.data.drop q = encodeList ds ++ rest →
    (e = -1 ∨ (q : Int) + (encodeList ds).length ≤ e) →
    ∃ s' fuel', fuel ≤ fuel' + needList ds ∧ s'.data = s.data ∧ s'.crc = none ∧ s'.kids = s.kids ++ ns ∧
      next S f s (findNext S a (s.data.length + 1) s.data q (⟨r, e⟩ :: ctx) 0)
        (fun g => readLoop S env a fuel (⟨r, e⟩ :: ctx) k f s g) =
      next S f s' (findNext S a (s'.data.length + 1) s'.data (q + (encodeList ds).length) (⟨r, e⟩ :: ctx) 0)
        (fun g => readLoop S env a fuel' (⟨r, e⟩ :: ctx) k f s' g)
  | [], ns, fuel, s, q, h, _, hc, _, _ => by
    simp only [LoadsToList] at h
    subst h
    refine ⟨s, fuel, by omega, rfl, hc, by simp, ?_⟩
    simp [encodeList]
  | d :: ds, ns, fuel, s, q, h, hfuel, hc, hdata, he => by
    simp only [LoadsToList] at h
    obtain ⟨rc, n, ns', ho, hd, hds, rfl⟩ := h
    simp only [needList] at hfuel
    obtain ⟨fuel, rfl⟩ : ∃ m, fuel = m + 1 := ⟨fuel - 1, by omega⟩
    rw [encodeList_cons, List.append_assoc] at hdata
    rw [encodeList_cons, List.length_append] at he
    push_cast at he
    have hf := loadsTo_head S env _ rc d n hd
    obtain ⟨p, hp⟩ := readElt_doc S env a d (k - 1) rc n fuel s.data s.mem (⟨r, e⟩ :: ctx) q (encodeList ds ++ rest) hd
      (by omega) hdata
    have hfind := findNext_doc S a s.data.length s.data q (encodeList ds ++ rest) ⟨r, e⟩ ctx rc d hf ho hdata (by simp only; omega)
    have hdum : (headOf rc q d).kind.isDummy S = false := by
      simp only [headOf, Kind.isDummy, Kind.cls]
      simpa using hf.cls
    have hep : (headOf rc q d).endPos.toNat = q + (encode d).length := by rw [headOf_end rc q d S hf]; omega
    obtain ⟨b, hb⟩ := addChild_live k f (headOf rc q d) s n hfin
    obtain ⟨s', fuel', h1, h2, h3, h4, h5⟩ := readLoop_pre S env a k r ctx f e rest hfin ds ns' fuel
      ⟨s.data, s.mem, q + (encode d).length, b, s.crc, f.endPos - (headOf rc q d).endPos, s.kids ++ [n]⟩
      (q + (encode d).length) hds (by omega) hc (by rw [← List.drop_drop, hdata]; exact List.drop_left' rfl) (by push_cast; omega)
    refine ⟨s', fuel', by simp only [needList]; omega, h2, h3, by rw [h4]; simp, ?_⟩
    rw [encodeList_cons, List.length_append, ← Nat.add_assoc]
    refine Eq.trans ?_ h5
    rw [hfind]
    simp only [next]
    rw [if_neg (by simp [headOf]), if_neg (by simp [hfin]), readLoop]
    simp only [hdum, Bool.and_false, Bool.false_eq_true, if_false]
    rw [hp]
    simp only
    rw [hb]
    simp only [skipData]
    rw [if_pos (show (headOf rc q d).finite = true from rfl)]
    simp only [turn, next, hfin, Bool.false_and, Bool.false_eq_true, if_false, hep]

/-- A Cluster of unknown size: length of its size field and its children. -/
structure Open1 where
  len : Nat
  ch : List Doc

/-- As a document with the ID `id`. -/
def Open1.doc (id : Nat) (c : Open1) : Doc := .group id c.len false false c.ch

/-- It is well-formed, with children that load as `ns`. -/
def Open1.Ok (S : Schema) (env : Env) (k r : Nat) (c : Open1) (ns : List Node) : Prop :=
  1 ≤ c.len ∧ c.len ≤ 8 ∧ LoadsToList S env (k - 1) r c.ch ns

/-- As a node. -/
def Open1.node (id : Nat) (c : Open1) (ns : List Node) : Node := .master ⟨id, -1, c.len, true, true, false⟩ 0 ns

theorem open1_length (id : Nat) (c : Open1) :
    (encode (c.doc id)).length = (idField id).length + c.len + (encodeList c.ch).length := by
  rw [Open1.doc, encode_group]
  simp [unknownField_length, payload]
  omega

/-- Reading such a Cluster in front of the end of the stream or of another one. -/
theorem readElt_open1 (S : Schema) (env : Env) (a : Bool) (k rc sg id : Nat) (m : Nat) (hm : WellFormedId id m) (he : Ends S rc sg id rc)
    (hcls : (S.ctx rc).cls = .master) (c : Open1) (ns : List Node) (hc : c.Ok S env k rc ns) (more : List Open1)
    (hmore : ∀ x ∈ more, 1 ≤ x.len ∧ x.len ≤ 8) (data : Bytes) (mem : Bool) (ctx : List PCtx) (hctx : NoEnd (⟨sg, -1⟩ :: ctx)) (start fuel : Nat)
    (hst : start ≤ data.length) (hfuel : needList c.ch + 1 ≤ fuel)
    (hdata : data.drop start = encode (c.doc id) ++ encodeList (more.map (Open1.doc id))) :
    readElt S env a fuel data mem (⟨sg, -1⟩ :: ctx) k (liveHead rc start (c.doc id)) =
      .ok (c.node id ns) (start + (encode (c.doc id)).length) := by
  obtain ⟨h1, h8, hch⟩ := hc
  obtain ⟨fuel, rfl⟩ : ∃ m, fuel = m + 1 := ⟨fuel - 1, by omega⟩
  have hpd := liveHead_posData rc start (c.doc id)
  have hlen := open1_length id c
  have hdl : data.length = start + (encode (c.doc id)).length + (encodeList (more.map (Open1.doc id))).length := by
    have := congrArg List.length hdata
    rw [List.length_drop, List.length_append] at this
    omega
  have hdrop : data.drop (start + (idField id).length + c.len) =
      encodeList c.ch ++ encodeList (more.map (Open1.doc id)) := by
    rw [Nat.add_assoc, ← List.drop_drop, hdata, Open1.doc, encode_group]
    simp only [Bool.false_eq_true, if_false, payload, List.nil_append, List.append_assoc]
    rw [← List.append_assoc (idField id)]
    exact List.drop_left' (by rw [List.length_append, unknownField_length])
  have hb : (liveHead rc start (c.doc id)).base S true = ⟨id, -1, c.len, true, true, false⟩ := by
    have : ((c.len : Int) % 256).toNat = c.len := by omega
    simp only [Found.base, liveHead, Found.id, Kind.cls, docLen, Open1.doc, this, he.1, hcls]
    rfl
  simp only [Open1.doc, docId, docLen] at hpd
  have hctx' : NoEnd (⟨rc, -1⟩ :: ⟨sg, -1⟩ :: ctx) := by
    intro x hx
    rcases List.mem_cons.mp hx with h | h
    · rw [h]
    · exact hctx x h
  have hf0 : (liveHead rc start (c.doc id)) = (liveHead rc start (.group id c.len false false c.ch)) := rfl
  rw [← hf0] at hpd
  generalize hg : liveHead rc start (c.doc id) = f at *
  have hkind : f.kind = .known rc := by rw [← hg]; rfl
  have hfin : f.finite = false := by rw [← hg]; rfl
  have hend : f.endPos = -1 := by rw [← hg]; rfl
  rw [readElt, hkind]
  simp only [if_pos hcls]
  rw [if_pos (by simp [hfin]), hpd, hend]
  obtain ⟨s', fuel', _, e2, e3, e4, e5⟩ := readLoop_pre S env a k rc (⟨sg, -1⟩ :: ctx) f (-1)
    (encodeList (more.map (Open1.doc id))) hfin c.ch ns fuel
    ⟨data, mem, start + (idField id).length + c.len, true, none, f.dataSize, []⟩ (start + (idField id).length + c.len) hch
    (by omega) rfl hdrop (Or.inl rfl)
  simp only at e5 e2 e4
  rw [e5, e2]
  have hq : start + (idField id).length + c.len + (encodeList c.ch).length = start + (encode (c.doc id)).length := by omega
  rw [hq]
  cases more with
  | nil =>
    simp only [List.map_nil, encodeList, List.length_nil, Nat.add_zero] at hdl
    rw [← hdl, findNext_end S a _ _ _ _ hctx']
    simp only [next]
    rw [if_neg (by omega), finish_eq, statusOf, e3, e4, hb]
    rfl
  | cons x xs =>
    obtain ⟨x1, x8⟩ := hmore x List.mem_cons_self
    obtain ⟨g, g1, g2, g3⟩ := findNext_ends S a data.length data (start + (encode (c.doc id)).length) ⟨rc, -1⟩ ⟨sg, -1⟩ ctx rc id x.len
      false x.ch (encodeList (xs.map (Open1.doc id))) rfl he x1 x8 m hm hcls
      (by rw [← List.drop_drop, hdata, List.drop_left' rfl, List.map_cons, encodeList_cons]; rfl)
    rw [g1]
    simp only [next]
    rw [if_pos (by omega), finish_eq, statusOf, e3, e4, hb, g3, Int.toNat_natCast]
    rfl

/-- The first, third, fifth, ... of a list. -/
def everyOther {α : Type} : List α → List α
  | [] => []
  | [x] => [x]
  | x :: _ :: xs => x :: everyOther xs

/-- The finder, starting in the content of the second, fourth, ... Cluster, goes on behind it: nothing in there looks like an
element of the parent. `pos` is where the first one starts. -/
def Quiet (S : Schema) (a : Bool) (data : Bytes) (ctx : List PCtx) (id : Nat) : Nat → List Open1 → Prop
  | _, [] => True
  | _, [_] => True
  | pos, c :: d :: cs =>
    findNext S a (data.length + 1) data (pos + (encode (c.doc id)).length + (idField id).length + d.len) ctx 0 =
      findNext S a (data.length + 1) data (pos + (encode (c.doc id)).length + (encode (d.doc id)).length) ctx 0 ∧
    Quiet S a data ctx id (pos + (encode (c.doc id)).length + (encode (d.doc id)).length) cs

theorem readLoop_open (S : Schema) (env : Env) (a : Bool) (k rc sg id m : Nat) (hm : WellFormedId id m) (he : Ends S rc sg id rc)
    (hcls : (S.ctx rc).cls = .master) (ctx : List PCtx) (hctx : NoEnd (⟨sg, -1⟩ :: ctx)) (f : Found) (hfin : f.finite = false) :
    ∀ (cs : List (Open1 × List Node)) (fuel : Nat) (s : LSt) (q : Nat),
      (∀ c ∈ cs, c.1.Ok S env (k - 1) rc c.2) → Quiet S a s.data (⟨sg, -1⟩ :: ctx) id q (cs.map (·.1)) →
      needList (cs.map (fun x : Open1 × List Node => x.1.doc id)) ≤ fuel → s.crc = none →
      s.data.drop q = encodeList (cs.map (fun x : Open1 × List Node => x.1.doc id)) → q ≤ s.data.length →
      next S f s (findNext S a (s.data.length + 1) s.data q (⟨sg, -1⟩ :: ctx) 0)
        (fun g => readLoop S env a fuel (⟨sg, -1⟩ :: ctx) k f s g) =
      .ok (.master (f.base S true) 0 (s.kids ++ (everyOther cs).map fun c => c.1.node id c.2)) s.data.length
  | [], fuel, s, q, _, _, _, hcrc, hdata, hq => by
    have hp : q = s.data.length := by
      have := congrArg List.length hdata
      simp only [List.length_drop, List.map_nil, encodeList, List.length_nil] at this
      omega
    rw [hp, findNext_end S a _ _ _ _ hctx]
    simp only [next]
    rw [if_neg (by omega), finish_eq, statusOf, hcrc]
    simp [everyOther]
  | c :: cs, fuel, s, q, hok, hquiet, hfuel, hcrc, hdata, hq => by
    simp only [List.map_cons, needList] at hfuel
    obtain ⟨fuel, rfl⟩ : ∃ m, fuel = m + 1 := ⟨fuel - 1, by omega⟩
    obtain ⟨h1, h8, hch⟩ := hok c List.mem_cons_self
    rw [List.map_cons, encodeList_cons] at hdata
    have hmap : cs.map (fun x : Open1 × List Node => x.1.doc id) = (cs.map (·.1)).map (Open1.doc id) := by simp
    have hlen : s.data.length = q + (encode (c.1.doc id)).length + (encodeList (cs.map (fun x : Open1 × List Node => x.1.doc id))).length := by
      have := congrArg List.length hdata
      rw [List.length_append, List.length_drop] at this
      omega
    have hfind := findNext_live S a s.data.length s.data q ⟨sg, -1⟩ ctx rc id c.1.len false c.1.ch
      (encodeList (cs.map (fun x : Open1 × List Node => x.1.doc id))) rfl he.offers h1 h8 m hm hcls hdata
    have hread := readElt_open1 S env a (k - 1) rc sg id m hm he hcls c.1 c.2 ⟨h1, h8, hch⟩ (cs.map (·.1))
      (by
        intro x hx
        obtain ⟨y, hy, rfl⟩ := List.mem_map.mp hx
        exact ⟨(hok y (List.mem_cons_of_mem _ hy)).1, (hok y (List.mem_cons_of_mem _ hy)).2.1⟩)
      s.data s.mem ctx hctx q fuel hq (by simp only [Open1.doc, need] at hfuel; simp at hfuel; omega) (by rw [hdata, hmap])
    have hf0 : liveHead rc q (.group id c.1.len false false c.1.ch) = liveHead rc q (c.1.doc id) := rfl
    rw [hf0] at hfind
    have hdum : (liveHead rc q (c.1.doc id)).kind.isDummy S = false := by
      simp only [liveHead, Kind.isDummy, Kind.cls, hcls]
      rfl
    rw [hfind]
    simp only [next]
    rw [if_neg (by simp [liveHead]), if_neg (by simp [hfin]), readLoop]
    simp only [hdum, Bool.and_false, Bool.false_eq_true, if_false]
    rw [hread]
    simp only
    obtain ⟨b, hb⟩ := addChild_live k f (liveHead rc q (c.1.doc id)) s (c.1.node id c.2) hfin
    rw [hb]
    simp only [skipData]
    rw [if_neg (show ¬ (liveHead rc q (c.1.doc id)).finite = true by simp [liveHead])]
    cases cs with
    | nil =>
      simp only [List.map_nil, encodeList, List.length_nil, Nat.add_zero] at hlen
      rw [← hlen, findNext_end S a _ _ _ _ hctx]
      simp only [turn, hfin, Bool.false_and, Bool.false_eq_true, if_false]
      rw [findNext_end S a _ _ _ _ hctx]
      simp only [next]
      rw [if_neg (by omega), finish_eq, statusOf, hcrc]
      simp [everyOther]
    | cons d cs =>
      obtain ⟨d1, d8, hdch⟩ := hok d (List.mem_cons_of_mem _ List.mem_cons_self)
      have hdrop1 : s.data.drop (q + (encode (c.1.doc id)).length) =
          encode (d.1.doc id) ++ encodeList (cs.map (fun x : Open1 × List Node => x.1.doc id)) := by
        rw [← List.drop_drop, hdata, List.drop_left' rfl, List.map_cons, encodeList_cons]
      have hfind2 := findNext_live S a s.data.length s.data (q + (encode (c.1.doc id)).length) ⟨sg, -1⟩ ctx rc id d.1.len false d.1.ch
        (encodeList (cs.map (fun x : Open1 × List Node => x.1.doc id))) rfl he.offers d1 d8 m hm hcls hdrop1
      rw [hfind2]
      simp only [liveHead_posData, docId, docLen]
      simp only [turn, hfin, Bool.false_and, Bool.false_eq_true, if_false]
      simp only [List.map_cons, Quiet] at hquiet
      rw [hquiet.1]
      simp only [List.map_cons, needList] at hfuel hlen
      rw [encodeList_cons, List.length_append] at hlen
      have := readLoop_open S env a k rc sg id m hm he hcls ctx hctx f hfin cs fuel
        ⟨s.data, s.mem, q + (encode (c.1.doc id)).length + (idField id).length + d.1.len, b, s.crc,
          f.endPos - (liveHead rc q (c.1.doc id)).endPos, s.kids ++ [c.1.node id c.2]⟩
        (q + (encode (c.1.doc id)).length + (encode (d.1.doc id)).length)
        (fun x hx => hok x (List.mem_cons_of_mem _ (List.mem_cons_of_mem _ hx))) hquiet.2 (by omega) hcrc
        (by rw [← List.drop_drop, hdrop1, List.drop_left' rfl]) (by simp only; omega)
      simp only at this
      rw [this]
      simp [everyOther]

end Verif.Ebml.Scan
