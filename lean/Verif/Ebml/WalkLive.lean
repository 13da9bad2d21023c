import Verif.Ebml.LoadSiblings
/-! The loops of mkclean and mkvalidator over the elements of the Segment. -/
set_option linter.unusedSimpArgs false
namespace Verif.Ebml.Scan
open EbmlDoc

/-- What a program does with the elements of the Segment: which types it reads, with which `AllowDummyElt` and `DepthCheckCRC`;
which type it passes over after reading it (the Cluster); whether a failed read ends the program; whether the element
met while passing over one that is not read is used as the next one. -/
structure Walker where
  reads : Nat → Option (Bool × Nat)
  cluster : Nat
  stops : Bool
  keeps : Bool

/-- Going on with the element found: the head of the loop. -/
def follow {α : Type} (o : Out) (cont : Found → Option (List α)) : Option (List α) :=
  match o with
  | .found g => cont g
  | .none _ _ => some []
  | _ => none

/-- The loop over the elements of the Segment, mkclean.c:1792-1851 and mkvalidator.c:1041-1308: the elements read, with their
types; `none` for a crash or a program ended by an error. `up` is `UpperElement`, `g` is `RLevel1`. The scope of the reads is
left out: with SCOPE_PARTIAL_DATA the frames of blocks are not kept. -/
def walk (S : Schema) (env : Env) (w : Walker) (data : Bytes) (ctx : List PCtx) : Nat → Int → Found → Option (List (Nat × Node))
  | 0, _, _ => none
  | fuel + 1, up, g =>
    let seek (p : Nat) := follow (findNext S true (data.length + 1) data p ctx up) (fun h => walk S env w data ctx fuel h.levels h)
    let skip (keep : Bool) (p : Nat) :=
      if g.finite then seek g.endPos.toNat
      else
        match findNext S true (data.length + 1) data p ctx 0 with
        | .found h => if keep then walk S env w data ctx fuel up h else seek h.posData
        | .none _ p' => seek p'
        | _ => none
    match g.kind with
    | .dummy _ => skip w.keeps g.streamPos.toNat
    | .known r =>
      match w.reads r with
      | none => skip w.keeps g.streamPos.toNat
      | some (a, k) =>
        match readElt S env a data.length data false ctx k g with
        | .ok n p => (if r = w.cluster then skip true p else seek p).map ((r, n) :: ·)
        | .err p => if w.stops then none else seek p
        | _ => none

/-- The loop with its first search, mkclean.c:1791 and mkvalidator.c:1040: `start` is where the content of the Segment starts. -/
def walkFrom (S : Schema) (env : Env) (w : Walker) (data : Bytes) (ctx : List PCtx) (fuel start : Nat) : Option (List (Nat × Node)) :=
  follow (findNext S true (data.length + 1) data start ctx 0) (fun h => walk S env w data ctx fuel h.levels h)

/-- mkclean: Info, Tracks, outside live mode Chapters, Tags, Attachments and with `--keep-cues` Cues, and Clusters,
mkclean.c:1795-1831. -/
def mkcleanWalker (S : Schema) (cluster : Nat) (live keepCues remux : Bool) : Walker where
  reads r :=
    match (S.ctx r).id with
    | 0x1549A966 | 0x1654AE6B => some (true, 0)
    | 0x1043A770 | 0x1254C367 | 0x1941A469 => if live then none else some (true, 0)
    | 0x1C53BB6B => if !live && keepCues then some (true, 0) else none
    | 0x1F43B675 => some (!remux, 0)
    | _ => none
  cluster := cluster
  stops := false
  keeps := false

/-- mkvalidator: Clusters, Info, Tracks, Tags, and outside live mode SeekHead, Cues, Chapters and Attachments,
mkvalidator.c:1044-1272. -/
def mkvalidatorWalker (S : Schema) (cluster : Nat) (live : Bool) : Walker where
  reads r :=
    match (S.ctx r).id with
    | 0x1F43B675 => some (false, 4)
    | 0x114D9B74 => if live then none else some (true, 2)
    | 0x1549A966 => some (true, 1)
    | 0x1654AE6B => some (true, 4)
    | 0x1C53BB6B => if live then none else some (true, 3)
    | 0x1043A770 => if live then none else some (true, 16)
    | 0x1254C367 => some (true, 4)
    | 0x1941A469 => if live then none else some (true, 3)
    | _ => none
  cluster := cluster
  stops := true
  keeps := true

/-- An element of the Segment: of known size, with its type and what it loads as; a Cluster of unknown size; or an element of
known size with an ID that means nothing there. -/
inductive Item where
  | known (r : Nat) (d : Doc) (n : Node)
  | live (c : Open1) (ns : List Node)
  | stray (id len : Nat) (p : Bytes)

/-- As a document. -/
def Item.doc (cid : Nat) : Item → Doc
  | .known _ d _ => d
  | .live c _ => c.doc cid
  | .stray id len p => .elem id len p

/-- What a program that reads `reads` should see of it. -/
def Item.seen (reads : Nat → Option (Bool × Nat)) (rc cid : Nat) : Item → List (Nat × Node)
  | .known r _ n => if (reads r).isSome then [(r, n)] else []
  | .live c ns => [(rc, c.node cid ns)]
  | .stray _ _ _ => []

/-- An ID that is in the table of no context, not global and not the ID of the contexts. -/
def Nowhere (S : Schema) (ctx : List PCtx) (id : Nat) : Prop :=
  (∀ c ∈ ctx, ∃ sem, (S.ctx c.ref).sem = some sem ∧ ∀ x ∈ sem, (S.ctx x).id ≠ id) ∧ (∀ x ∈ S.globals, (S.ctx x).id ≠ id) ∧
  ∀ c ∈ ctx, (S.ctx c.ref).id ≠ id

/-- An element is well-formed. `up` are the contexts above the Segment. -/
def Item.Ok (S : Schema) (env : Env) (reads : Nat → Option (Bool × Nat)) (sg rc : Nat) (up : List PCtx) : Item → Prop
  | .known r d n => Offers S sg (docId d) r ∧ ∃ k, (∀ a k', reads r = some (a, k') → k = k') ∧ LoadsTo S env k r d n
  | .live c ns => ∃ a k, reads rc = some (a, k) ∧ c.Ok S env k rc ns
  | .stray id len p => HeadOk id len p.length ∧ ∀ e, Nowhere S (⟨sg, e⟩ :: up) id

/-- The element may follow a Cluster of unknown size: it is of a type that ends it. -/
def Item.EndsCluster (S : Schema) (sg rc cid : Nat) : Item → Prop
  | .known r d _ => Ends S rc sg (docId d) r
  | .live _ _ => Ends S rc sg cid rc
  | .stray _ _ _ => False

/-- Elements in a row are well-formed, and what follows a Cluster of unknown size ends it; the end of a Segment of known size
(`e` is not -1) does not. -/
def ItemsOk (S : Schema) (env : Env) (reads : Nat → Option (Bool × Nat)) (sg rc cid : Nat) (e : Int) (up : List PCtx) :
    List Item → Prop
  | [] => True
  | x :: xs => x.Ok S env reads sg rc up ∧
    (match x, xs with
     | .live _ _, y :: _ => y.EndsCluster S sg rc cid
     | .live _ _, [] => e = -1
     | _, _ => True) ∧ ItemsOk S env reads sg rc cid e up xs

/-- Where the Segment ends: `q` is the position behind its elements, `e` its end (-1 if the size is unknown; then the file ends
there), `up` the contexts above it, `data` the file. -/
def SegmentEnds (data : Bytes) (e : Int) (up : List PCtx) (q : Nat) : Prop :=
  (e = -1 ∧ q = data.length) ∨ (e = q ∧ ∀ c ∈ up, c.endPos = q)

theorem adjust_all (q : Nat) : ∀ (up : List PCtx) (c : PCtx) (lv : Int), c.endPos = q → (∀ x ∈ up, x.endPos = (q : Int)) →
    ∃ c' lv', adjust q (c :: up) lv = ([c'], lv') ∧ c'.endPos = q ∧ lv' = lv + up.length
  | [], c, lv, hc, _ => ⟨c, lv, rfl, hc, by simp⟩
  | y :: up, c, lv, hc, h => by
    obtain ⟨c', lv', e1, e2, e3⟩ := adjust_all q up y (lv + 1) (h y List.mem_cons_self)
      (fun x hx => h x (List.mem_cons_of_mem _ hx))
    refine ⟨c', lv', ?_, e2, by simp only [List.length_cons]; push_cast; omega⟩
    rw [adjust, if_pos (by omega), e1]

/-- At the end of all contexts nothing is found, whatever follows. -/
theorem findNext_limit (S : Schema) (a : Bool) (F : Nat) (data : Bytes) (q : Nat) (c : PCtx) (up : List PCtx) (lv : Int)
    (hc : c.endPos = q) (hup : ∀ x ∈ up, x.endPos = (q : Int)) :
    findNext S a (F + 1) data q (c :: up) lv = .none (lv + up.length) q := by
  obtain ⟨c', lv', e1, e2, e3⟩ := adjust_all q up c lv hc hup
  unfold findNext
  rw [e1]
  simp only [loop]
  have hl : limit [c'] = q := e2
  have h0 : idMarker [] = none := by decide
  have h1 : (readCodedSize []).len = 0 := by decide
  rw [hl, idLoop.eq_def, h0]
  simp only [if_true]
  rw [sizeLoop.eq_def]
  simp only [List.length_nil, Nat.sub_self, Nat.add_zero, gt_iff_lt, Nat.lt_irrefl, if_false, List.drop_nil, List.take_nil, h1,
    ne_eq, not_true_eq_false, Nat.not_lt_zero, ge_iff_le, Nat.not_succ_le_zero, false_and, if_true, Nat.reduceLeDiff]
  simp only [fit, attempt, Option.isSome_none, Bool.false_eq_true, false_and, and_false, if_false, hl, Int.le_refl, and_true]
  rw [if_pos (by omega), e3, if_neg (by simp)]

theorem findNext_segment_end (S : Schema) (a : Bool) (F : Nat) (data : Bytes) (e : Int) (q sg : Nat) (up : List PCtx)
    (h : SegmentEnds data e up q) : ∃ lv, findNext S a (F + 1) data q (⟨sg, e⟩ :: up) 0 = .none lv q := by
  rcases h with ⟨rfl, rfl⟩ | ⟨rfl, hup⟩
  · refine ⟨0, ?_⟩
    unfold findNext
    have hadj : adjust data.length (⟨sg, -1⟩ :: up) 0 = (⟨sg, -1⟩ :: up, 0) := by
      cases up with
      | nil => rfl
      | cons c' up => rw [adjust, if_neg (by simp)]
    rw [hadj]
    simp only [List.drop_length, loop]
    have hl : limit (⟨sg, -1⟩ :: up) = -1 := rfl
    rw [hl, idLoop.eq_def]
    have : idMarker [] = none := by decide
    rw [this]
    simp only
    rw [if_neg (by omega)]
  · exact ⟨_, findNext_limit S a F data q ⟨sg, q⟩ up 0 rfl hup⟩

theorem findNext_end1 (S : Schema) (a : Bool) (F : Nat) (data : Bytes) (c : PCtx) (up : List PCtx) (h : c.endPos = -1) :
    findNext S a (F + 1) data data.length (c :: up) 0 = .none 0 data.length := by
  unfold findNext
  have hadj : adjust data.length (c :: up) 0 = (c :: up, 0) := by
    cases up with
    | nil => rfl
    | cons c' up => rw [adjust, if_neg (by omega)]
  rw [hadj]
  simp only [List.drop_length, loop]
  have hl : limit (c :: up) = -1 := h
  rw [hl, idLoop.eq_def]
  have : idMarker [] = none := by decide
  rw [this]
  simp only
  rw [if_neg (by omega)]

/-- The head of an element of known size met inside an element it ends. -/
theorem findNext_ends_doc (S : Schema) (a : Bool) (F : Nat) (data : Bytes) (start : Nat) (rest : Bytes)
    (c p : PCtx) (up : List PCtx) (r : Nat) (d : Doc) (h : HeadFacts S r d) (he : Ends S c.ref p.ref (docId d) r)
    (hend : c.endPos = -1 ∨ (start : Int) + (encode d).length ≤ c.endPos) (hdata : data.drop start = encode d ++ rest) :
    ∃ g, findNext S a (F + 1) data start (c :: p :: up) 0 = .found g ∧ g.levels = 1 ∧ g.pos = start := by
  have hlen := encode_len S r d h
  obtain ⟨h1, h8, hsz, n, hn⟩ := h.ok
  have hidl := idField_len_wf _ n hn
  have hread := read_sizeField (docLen d) (docSize d) h1 h8 hsz
  obtain ⟨_, _, _, _, _, _, hfrom⟩ := idField_head _ n hn
  have hcr := createUsing_ends S (idField (docId d) ++ sizeField (docLen d) (docSize d)) n a c p up _ r (hfrom _) he
  have hne : ((docSize d : Nat) != 2 ^ (7 * docLen d) - 1) = true := by simp; omega
  have := findNext_head S a F data start c (p :: up) 0 (docId d) n (sizeField (docLen d) (docSize d)) (payload d ++ rest) hn
    (by rw [hread, sizeField_length]) (by rw [sizeField_length]; omega)
    (by rw [hdata, h.enc, List.append_assoc _ (payload d)]) (by rw [sizeField_length]; omega)
    (by rw [hread]; intro _; simp only; omega) r 1 hcr h.cls
    (by rw [hread]; simp only; rw [hne]; exact h.val)
  exact ⟨_, this, rfl, rfl⟩

/-- The head of a Cluster of unknown size inside the Segment. -/
def openHead (r start : Nat) (d : Doc) (e : Int) : Found := { liveHead r start d with endPos := e }

/-- The head of an element of unknown size in a context, and inside an element it ends. -/
theorem findNext_open (S : Schema) (a : Bool) (F : Nat) (data : Bytes) (start : Nat) (c : PCtx) (up : List PCtx)
    (r id len : Nat) (ch : List Doc) (rest : Bytes)
    (hend : c.endPos = -1 ∨ (start : Int) + (idField id).length + len ≤ c.endPos)
    (h1 : 1 ≤ len) (h8 : len ≤ 8) (m : Nat) (hm : WellFormedId id m) (hcls : (S.ctx r).cls = .master)
    (hdata : data.drop start = encode (.group id len false false ch) ++ rest) :
    (Offers S c.ref id r →
      findNext S a (F + 1) data start (c :: up) 0 = .found (openHead r start (.group id len false false ch) c.endPos)) ∧
    (∀ p up', up = p :: up' → Ends S c.ref p.ref id r →
      ∃ g, findNext S a (F + 1) data start (c :: up) 0 = .found g ∧ g.levels = 1 ∧ g.pos = start) := by
  have hread := read_unknownField len h1 h8
  have hidl := idField_len_wf id m hm
  obtain ⟨_, _, _, _, _, _, hfrom⟩ := idField_head id m hm
  have key := fun j hcr => findNext_head S a F data start c up 0 id m (unknownField len)
    (payload (.group id len false false ch) ++ rest) hm
    (by rw [hread, unknownField_length]) (by rw [unknownField_length]; omega)
    (by rw [hdata, encode_group]; simp) (by rw [unknownField_length]; omega)
    (by rw [hread]; intro h; exact absurd rfl h) r j hcr (by rw [hcls]; decide) (by rw [hcls]; rfl)
  constructor
  · intro ho
    obtain ⟨j, hj, hcr⟩ := createUsing_offers S (idField id ++ unknownField len) m a c up id r (hfrom _) ho
    rw [key j hcr, hread, unknownField_length, openHead, liveHead]
    simp [if_neg (show ¬ j > 0 by omega), docId, docLen, hidl]
  · rintro p up' rfl he
    exact ⟨_, key 1 (createUsing_ends S (idField id ++ unknownField len) m a c p up' id r (hfrom _) he), rfl, rfl⟩

theorem createUsing_nowhere (S : Schema) (w : Bytes) (n id : Nat) (hn : n ≠ 0) (hw : idFromBuffer w n = id) :
    ∀ (up : List PCtx) (c : PCtx) (lv : Int), Nowhere S (c :: up) id → createUsing S w n true (c :: up) lv = some (.dummy id, 0)
  | [], c, lv, h => by
    obtain ⟨h1, h2, h3⟩ := h
    obtain ⟨sem, hs, hx⟩ := h1 c List.mem_cons_self
    have e1 : sem.find? (fun r => (S.ctx r).id == id) = none := by
      rw [List.find?_eq_none]; intro x hx'; simpa using hx x hx'
    have e2 : S.globals.find? (fun r => (S.ctx r).id == id) = none := by
      rw [List.find?_eq_none]; intro x hx'; simpa using h2 x hx'
    rw [createUsing.eq_def]
    simp only [hs, hw, e1, e2]
    rw [if_pos (by simp [hn]), if_neg (h3 c List.mem_cons_self)]
  | y :: up, c, lv, h => by
    obtain ⟨h1, h2, h3⟩ := h
    obtain ⟨sem, hs, hx⟩ := h1 c List.mem_cons_self
    have e1 : sem.find? (fun r => (S.ctx r).id == id) = none := by
      rw [List.find?_eq_none]; intro x hx'; simpa using hx x hx'
    have e2 : S.globals.find? (fun r => (S.ctx r).id == id) = none := by
      rw [List.find?_eq_none]; intro x hx'; simpa using h2 x hx'
    rw [createUsing.eq_def]
    simp only [hs, hw, e1, e2]
    exact createUsing_nowhere S w n id hn hw up y (lv + 1)
      ⟨fun x hx => h1 x (List.mem_cons_of_mem _ hx), h2, fun x hx => h3 x (List.mem_cons_of_mem _ hx)⟩

/-- The head of an element that is not known. -/
def strayHead (start id len size : Nat) : Found :=
  ⟨.dummy id, start, start + (idField id).length, len, size, start + (idField id).length + len + size, true, 0,
    start + (idField id).length + len⟩

theorem findNext_stray (S : Schema) (F : Nat) (data : Bytes) (start : Nat) (c : PCtx) (up : List PCtx)
    (id len : Nat) (p rest : Bytes) (hh : HeadOk id len p.length) (hno : Nowhere S (c :: up) id)
    (hend : c.endPos = -1 ∨ (start : Int) + (encode (.elem id len p)).length ≤ c.endPos)
    (hdata : data.drop start = encode (.elem id len p) ++ rest) :
    findNext S true (F + 1) data start (c :: up) 0 = .found (strayHead start id len p.length) := by
  obtain ⟨h1, h8, hsz, n, hn⟩ := hh
  have hidl := idField_len_wf _ n hn
  have hlen : (encode (.elem id len p)).length = (idField id).length + len + p.length := by
    rw [encode_elem]; simp [sizeField_length]; omega
  have hread := read_sizeField len p.length h1 h8 hsz
  obtain ⟨_, _, _, _, _, _, hfrom⟩ := idField_head _ n hn
  have hcr := createUsing_nowhere S (idField id ++ sizeField len p.length) n id (by have := hn.1; omega) (hfrom _) up c 0 hno
  have hne : ((p.length : Nat) != 2 ^ (7 * len) - 1) = true := by simp; omega
  have := findNext_kind S true F data start c up 0 id n (sizeField len p.length) (p ++ rest) hn
    (by rw [hread, sizeField_length]) (by rw [sizeField_length]; omega)
    (by rw [hdata, encode_elem]; simp) (by rw [sizeField_length]; omega)
    (by rw [hread]; intro _; simp only; omega) (.dummy id) 0 hcr (Or.inl rfl)
    (by rw [hread]; simp only; rw [hne]; rfl)
  rw [this, strayHead, sizeField_length, hread, hidl]
  simp only [hne, if_true, if_neg (show ¬ (0 : Int) > 0 by omega)]

/-- Reading a Cluster of unknown size in front of something that ends it, or of the end of the stream if the Segment is of
unknown size too. -/
theorem readElt_open (S : Schema) (env : Env) (a : Bool) (k rc sg id : Nat) (hid : (S.ctx rc).id = id)
    (hcls : (S.ctx rc).cls = .master) (c : Open1) (ns : List Node) (hc : c.Ok S env k rc ns) (rest : Bytes)
    (data : Bytes) (mem : Bool) (ctx : List PCtx) (start fuel : Nat) (e : Int)
    (hfuel : needList c.ch + 1 ≤ fuel)
    (hdata : data.drop start = encode (c.doc id) ++ rest)
    (he : e = -1 ∨ (start : Int) + (encode (c.doc id)).length ≤ e) (o : Out)
    (ho : findNext S a (data.length + 1) data (start + (encode (c.doc id)).length) (⟨rc, e⟩ :: ⟨sg, e⟩ :: ctx) 0 = o) :
    (o = .none 0 (start + (encode (c.doc id)).length) ∨
      (∃ g, o = .found g ∧ g.levels = 1 ∧ g.pos = ((start + (encode (c.doc id)).length : Nat) : Int)) →
      readElt S env a fuel data mem (⟨sg, e⟩ :: ctx) k (openHead rc start (c.doc id) e) =
        .ok (c.node id ns) (start + (encode (c.doc id)).length)) ∧
    (∀ lv p, o = .none lv p → lv > 0 →
      readElt S env a fuel data mem (⟨sg, e⟩ :: ctx) k (openHead rc start (c.doc id) e) = .bad) := by
  obtain ⟨h1, h8, hch⟩ := hc
  obtain ⟨fuel, rfl⟩ : ∃ m, fuel = m + 1 := ⟨fuel - 1, by omega⟩
  have hpd := liveHead_posData rc start (c.doc id)
  have hlen := open1_length id c
  have hdrop : data.drop (start + (idField id).length + c.len) = encodeList c.ch ++ rest := by
    rw [Nat.add_assoc, ← List.drop_drop, hdata, Open1.doc, encode_group]
    simp only [Bool.false_eq_true, if_false, payload, List.nil_append, List.append_assoc]
    rw [← List.append_assoc (idField id)]
    exact List.drop_left' (by rw [List.length_append, unknownField_length])
  have hb : (openHead rc start (c.doc id) e).base S true = ⟨id, -1, c.len, true, true, false⟩ := by
    have : ((c.len : Int) % 256).toNat = c.len := by omega
    simp only [Found.base, openHead, liveHead, Found.id, Kind.cls, docLen, Open1.doc, this, hid, hcls]
    rfl
  have hpd : (openHead rc start (c.doc id) e).posData = start + (idField id).length + c.len := by
    have h2 : (openHead rc start (c.doc id) e).posData = (liveHead rc start (c.doc id)).posData := rfl
    rw [h2, hpd]; rfl
  generalize hg : openHead rc start (c.doc id) e = f at *
  have hkind : f.kind = .known rc := by rw [← hg]; rfl
  have hfin : f.finite = false := by rw [← hg]; rfl
  have hend : f.endPos = e := by rw [← hg]; rfl
  rw [readElt, hkind]
  simp only [if_pos hcls]
  rw [if_pos (by simp [hfin]), hpd, hend]
  obtain ⟨s', fuel', _, e2, e3, e4, e5⟩ := readLoop_pre S env a k rc (⟨sg, e⟩ :: ctx) f e rest hfin c.ch ns fuel
    ⟨data, mem, start + (idField id).length + c.len, true, none, f.dataSize, []⟩ (start + (idField id).length + c.len) hch
    (by omega) rfl hdrop (by push_cast; omega)
  simp only at e5 e2 e4
  rw [e5, e2]
  have hq : start + (idField id).length + c.len + (encodeList c.ch).length = start + (encode (c.doc id)).length := by omega
  rw [hq, ho]
  constructor
  · rintro (rfl | ⟨g, rfl, g2, g3⟩)
    · simp only [next]
      rw [if_neg (by omega), finish_eq, statusOf, e3, e4, hb]
      rfl
    · simp only [next]
      rw [if_pos (by omega), finish_eq, statusOf, e3, e4, hb, g3, Int.toNat_natCast]
      rfl
  · rintro lv p rfl hlv
    simp only [next, if_pos hlv]

/-- The head the finder returns for an element of the Segment. -/
def Item.head (rc cid start : Nat) (e : Int) : Item → Found
  | .known r d _ => headOf r start d
  | .live c _ => openHead rc start (c.doc cid) e
  | .stray id len p => strayHead start id len p.length

theorem Item.head_levels (rc cid start : Nat) (e : Int) (x : Item) : (x.head rc cid start e).levels = 0 := by
  cases x <;> rfl

/-- The facts about Clusters needed below. -/
structure ClusterOk (S : Schema) (sg rc cid : Nat) : Prop where
  offers : Offers S sg cid rc
  wf : ∃ m, WellFormedId cid m
  cls : (S.ctx rc).cls = .master

theorem Item.find (S : Schema) (env : Env) (reads : Nat → Option (Bool × Nat)) (sg rc cid : Nat) (hcl : ClusterOk S sg rc cid)
    (x : Item) (data rest : Bytes) (start : Nat) (e : Int) (up : List PCtx) (hx : x.Ok S env reads sg rc up)
    (he : e = -1 ∨ (start : Int) + (encode (x.doc cid)).length ≤ e)
    (hdata : data.drop start = encode (x.doc cid) ++ rest) :
    findNext S true (data.length + 1) data start (⟨sg, e⟩ :: up) 0 = .found (x.head rc cid start e) := by
  cases x with
  | known r d n =>
    obtain ⟨ho, k, _, hl⟩ := hx
    exact findNext_doc S true _ data start rest ⟨sg, e⟩ up r d (loadsTo_head S env k r d n hl) ho hdata he
  | live c ns =>
    obtain ⟨a, k, _, h1, h8, _⟩ := hx
    obtain ⟨m, hm⟩ := hcl.wf
    have hol := open1_length cid c
    simp only [Item.doc] at he hdata
    exact (findNext_open S true _ data start ⟨sg, e⟩ up rc cid c.len c.ch rest (by simp only; omega) h1 h8 m hm hcl.cls hdata).1
      hcl.offers
  | stray id len p =>
    obtain ⟨hh, hno⟩ := hx
    exact findNext_stray S _ data start ⟨sg, e⟩ up id len p rest hh (hno e) he hdata

/-- What follows a Cluster of unknown size is met inside it. -/
theorem Item.met (S : Schema) (env : Env) (reads : Nat → Option (Bool × Nat)) (sg rc cid : Nat) (hcl : ClusterOk S sg rc cid)
    (a : Bool) (x : Item) (data rest : Bytes) (start : Nat) (e : Int) (up : List PCtx) (hx : x.Ok S env reads sg rc up)
    (hends : x.EndsCluster S sg rc cid) (he : e = -1 ∨ (start : Int) + (encode (x.doc cid)).length ≤ e)
    (hdata : data.drop start = encode (x.doc cid) ++ rest) :
    ∃ g, findNext S a (data.length + 1) data start (⟨rc, e⟩ :: ⟨sg, e⟩ :: up) 0 = .found g ∧ g.levels = 1 ∧ g.pos = start := by
  cases x with
  | known r d n =>
    obtain ⟨ho, k, _, hl⟩ := hx
    exact findNext_ends_doc S a _ data start rest ⟨rc, e⟩ ⟨sg, e⟩ up r d (loadsTo_head S env k r d n hl) hends he hdata
  | live c ns =>
    obtain ⟨_, k, _, h1, h8, _⟩ := hx
    obtain ⟨m, hm⟩ := hcl.wf
    have hol := open1_length cid c
    simp only [Item.doc] at he hdata
    exact (findNext_open S a _ data start ⟨rc, e⟩ (⟨sg, e⟩ :: up) rc cid c.len c.ch rest (by simp only; omega) h1 h8 m hm hcl.cls
      hdata).2 ⟨sg, e⟩ up rfl hends
  | stray id len p => exact hends.elim

theorem walk_items (S : Schema) (env : Env) (w : Walker) (sg rc cid : Nat) (hcl : ClusterOk S sg rc cid) (hw : w.cluster = rc)
    (data : Bytes) (e : Int) (up : List PCtx) (after : Bytes) : ∀ (xs : List Item) (start fuel : Nat),
    ItemsOk S env w.reads sg rc cid e up xs → data.drop start = encodeList (xs.map (Item.doc cid)) ++ after → start ≤ data.length →
    SegmentEnds data e up (start + (encodeList (xs.map (Item.doc cid))).length) → xs.length ≤ fuel →
    follow (findNext S true (data.length + 1) data start (⟨sg, e⟩ :: up) 0)
      (fun h => walk S env w data (⟨sg, e⟩ :: up) fuel h.levels h) = some (xs.flatMap (Item.seen w.reads rc cid)) := by
  intro xs
  induction xs with
  | nil =>
    intro start fuel _ _ _ hends _
    simp only [List.map_nil, encodeList, List.length_nil, Nat.add_zero] at hends
    obtain ⟨lv, h⟩ := findNext_segment_end S true data.length data e start sg up hends
    rw [h]
    rfl
  | cons x xs ih =>
    intro start fuel hok hdata hst hends hfuel
    obtain ⟨fuel, rfl⟩ : ∃ m, fuel = m + 1 := ⟨fuel - 1, by simp only [List.length_cons] at hfuel; omega⟩
    obtain ⟨hx, hxy, hxs⟩ := hok
    rw [List.map_cons, encodeList_cons, List.append_assoc] at hdata
    rw [List.map_cons, encodeList_cons, List.length_append, ← Nat.add_assoc] at hends
    have hlen : data.length = start + (encode (x.doc cid)).length + (encodeList (xs.map (Item.doc cid))).length + after.length := by
      have := congrArg List.length hdata
      simp only [List.length_drop, List.length_append] at this
      omega
    have hfit : e = -1 ∨ (start : Int) + (encode (x.doc cid)).length + (encodeList (xs.map (Item.doc cid))).length ≤ e := by
      rcases hends with ⟨h, _⟩ | ⟨h, _⟩
      · exact Or.inl h
      · right; omega
    have hdata' : data.drop (start + (encode (x.doc cid)).length) = encodeList (xs.map (Item.doc cid)) ++ after := by
      rw [← List.drop_drop, hdata]; exact List.drop_left' rfl
    have hrec := ih (start + (encode (x.doc cid)).length) fuel hxs hdata' (by omega) hends
      (by simp only [List.length_cons] at hfuel; omega)
    rw [Item.find S env w.reads sg rc cid hcl x data _ start e up hx (by omega) hdata]
    simp only [follow, Item.head_levels]
    cases x with
    | known r d n =>
      obtain ⟨ho, k, hk, hl⟩ := hx
      have hf := loadsTo_head S env k r d n hl
      have hep : (headOf r start d).endPos.toNat = start + (encode d).length := by rw [headOf_end r start d S hf]; omega
      simp only [Item.doc] at hdata hlen hrec
      have hkind : (headOf r start d).kind = .known r := rfl
      have hfin : (headOf r start d).finite = true := rfl
      rw [show (Item.known r d n).head rc cid start e = headOf r start d from rfl, walk]
      simp only [hkind, hfin, if_true, hep, hrec]
      cases hr : w.reads r with
      | none => simp [Item.seen, hr]
      | some ak =>
        obtain ⟨a, k'⟩ := ak
        have := hk a k' hr
        subst this
        have hneed := need_le S env d k r n hl
        have hread := readElt_at S env a d k r n data.length data false (⟨sg, e⟩ :: up) start _ hl (by omega) hdata
        simp only [hread, hrec]
        simp [Item.seen, hr]
    | stray id len p =>
      obtain ⟨hh, hno⟩ := hx
      have hep : (strayHead start id len p.length).endPos.toNat = start + (encode (.elem id len p)).length := by
        rw [encode_elem]
        simp only [strayHead, List.length_append, sizeField_length]
        omega
      simp only [Item.doc] at hdata hlen hrec
      have hkind : (strayHead start id len p.length).kind = .dummy id := rfl
      have hfin : (strayHead start id len p.length).finite = true := rfl
      rw [show (Item.stray id len p).head rc cid start e = strayHead start id len p.length from rfl, walk]
      simp only [hkind, hfin, if_true, hep, hrec]
      simp [Item.seen]
    | live c ns =>
      obtain ⟨a, k, hr, hc⟩ := hx
      have hneed := needList_le S env c.ch (k - 1) rc ns hc.2.2
      have hol := open1_length cid c
      have hidl : 1 ≤ (idField cid).length := by
        obtain ⟨m, hm⟩ := hcl.wf
        rw [idField_len_wf cid m hm]; exact hm.1
      simp only [Item.doc] at hdata hdata' hlen hrec hfit hends
      have hkind : (openHead rc start (c.doc cid) e).kind = .known rc := rfl
      have hfin : (openHead rc start (c.doc cid) e).finite = false := rfl
      have hre := readElt_open S env a k rc sg cid hcl.offers.1 hcl.cls c ns hc (encodeList (xs.map (Item.doc cid)) ++ after) data
        false up start data.length e (by omega) hdata (by omega) _ rfl
      cases xs with
      | nil =>
        simp only at hxy
        subst hxy
        simp only [List.map_nil, encodeList, List.length_nil, Nat.add_zero] at hends hlen
        have hq : start + (encode (c.doc cid)).length = data.length := by
          rcases hends with ⟨_, h⟩ | ⟨h, _⟩
          · exact h
          · omega
        have hn := findNext_end1 S a data.length data ⟨rc, -1⟩ (⟨sg, -1⟩ :: up) rfl
        have hn' := findNext_end1 S true data.length data ⟨sg, -1⟩ up rfl
        have hread := hre.1 (Or.inl (by rw [hq, hn]))
        rw [show (Item.live c ns).head rc cid start (-1) = openHead rc start (c.doc cid) (-1) from rfl, walk]
        simp only [hkind, hr, hread, hw, if_true, hfin, hq, hn', follow, Bool.false_eq_true, if_false]
        simp [Item.seen]
      | cons y ys =>
        simp only at hxy
        rw [List.map_cons, encodeList_cons, List.append_assoc] at hdata'
        rw [List.map_cons, encodeList_cons, List.length_append] at hfit
        have hmet := Item.met S env w.reads sg rc cid hcl a y data _ _ e up hxs.1 hxy (by push_cast at hfit ⊢; omega) hdata'
        have hfind := Item.find S env w.reads sg rc cid hcl y data _ _ e up hxs.1 (by push_cast at hfit ⊢; omega) hdata'
        have hread := hre.1 (Or.inr hmet)
        rw [hfind] at hrec
        simp only [follow, Item.head_levels] at hrec
        rw [show (Item.live c ns).head rc cid start e = openHead rc start (c.doc cid) e from rfl, walk]
        simp only [hkind, hr, hread, hw, if_true, hfin, hfind, Bool.false_eq_true, if_false, hrec]
        simp [Item.seen]

/-- A Cluster of unknown size at the end of a Segment of known size ends the program. -/
theorem walk_open_last (S : Schema) (env : Env) (w : Walker) (sg rc cid : Nat) (hcl : ClusterOk S sg rc cid)
    (data : Bytes) (up : List PCtx) (after : Bytes) (c : Open1) (ns : List Node) (start fuel : Nat)
    (hx : (Item.live c ns).Ok S env w.reads sg rc up) (hst : start ≤ data.length)
    (hdata : data.drop start = encode (c.doc cid) ++ after)
    (hup : ∀ x ∈ up, x.endPos = ((start + (encode (c.doc cid)).length : Nat) : Int)) :
    follow (findNext S true (data.length + 1) data start (⟨sg, ((start + (encode (c.doc cid)).length : Nat) : Int)⟩ :: up) 0)
      (fun h => walk S env w data (⟨sg, ((start + (encode (c.doc cid)).length : Nat) : Int)⟩ :: up) fuel h.levels h) = none := by
  have hfind := Item.find S env w.reads sg rc cid hcl (.live c ns) data after start _ up hx
    (Or.inr (show (start : Int) + (encode (c.doc cid)).length ≤ ((start + (encode (c.doc cid)).length : Nat) : Int) by omega)) hdata
  rw [hfind]
  simp only [follow, Item.head_levels]
  obtain ⟨a, k, hr, hc⟩ := hx
  cases fuel with
  | zero => rfl
  | succ fuel =>
    have hlen : data.length = start + (encode (c.doc cid)).length + after.length := by
      have := congrArg List.length hdata
      simp only [List.length_drop, List.length_append] at this
      omega
    have hneed := needList_le S env c.ch (k - 1) rc ns hc.2.2
    have hol := open1_length cid c
    have hidl : 1 ≤ (idField cid).length := by
      obtain ⟨m, hm⟩ := hcl.wf
      rw [idField_len_wf cid m hm]; exact hm.1
    have hn := findNext_limit S a data.length data (start + (encode (c.doc cid)).length)
      ⟨rc, ((start + (encode (c.doc cid)).length : Nat) : Int)⟩ (⟨sg, ((start + (encode (c.doc cid)).length : Nat) : Int)⟩ :: up) 0 rfl
      (by
        intro x hx
        rcases List.mem_cons.mp hx with h | h
        · rw [h]
        · exact hup x h)
    have hbad := (readElt_open S env a k rc sg cid hcl.offers.1 hcl.cls c ns hc after data false up start data.length
      ((start + (encode (c.doc cid)).length : Nat) : Int) (by omega) hdata (Or.inr (by omega)) _ hn).2 _ _ rfl
      (by simp only [List.length_cons]; push_cast; omega)
    have hkind : ∀ e, (openHead rc start (c.doc cid) e).kind = .known rc := fun _ => rfl
    rw [show ∀ e, (Item.live c ns).head rc cid start e = openHead rc start (c.doc cid) e from fun _ => rfl, walk]
    simp only [hkind, hr, hbad]

end Verif.Ebml.Scan
