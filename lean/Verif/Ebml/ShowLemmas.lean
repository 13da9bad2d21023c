import Verif.Ebml.ShowSpec
import Verif.Ebml.ParseLemmas
/-! Proofs about the listing of mkvtree. -/
set_option linter.unusedSimpArgs false
namespace Verif.Ebml.Scan
open EbmlDoc

/-- Does the context reach behind `s`. -/
def openAt (s : Nat) (c : PCtx) : Bool := c.endPos == -1 || decide ((s : Int) < c.endPos)

theorem openAt_mono (s s' : Nat) (h : s ≤ s') (l : List PCtx) : (l.filter (openAt s)).filter (openAt s') = l.filter (openAt s') := by
  rw [List.filter_filter]
  apply List.filter_congr
  intro c _
  unfold openAt
  by_cases h1 : c.endPos = -1
  · simp [h1]
  · by_cases h2 : (s' : Int) < c.endPos
    · simp [h2]; right; omega
    · simp [h1, h2]

theorem filter_mono (s s' : Nat) (h : s ≤ s') (l l' : List PCtx) (e : l.filter (openAt s) = l'.filter (openAt s)) :
    l.filter (openAt s') = l'.filter (openAt s') := by
  rw [← openAt_mono s s' h l, ← openAt_mono s s' h l', e]

theorem adjust_open (s : Nat) : ∀ (l : List PCtx) (lv : Int) (c : PCtx) (cs : List PCtx), l.filter (openAt s) = c :: cs →
    ∃ up, ∃ k : Nat, adjust s l lv = (c :: up, lv + k) ∧ openAt s c = true ∧ (k > 0 → ∃ t r, l = t :: r ∧ openAt s t = false)
  | [], _, _, _, h => by simp at h
  | [x], lv, c, cs, h => by
    rw [List.filter_cons] at h
    split at h
    · rename_i ho
      injection h with h1 h2
      subst h1
      exact ⟨[], 0, by simp [adjust], ho, by omega⟩
    · simp at h
  | x :: y :: l, lv, c, cs, h => by
    rw [List.filter_cons] at h
    split at h
    · rename_i ho
      injection h with h1 h2
      subst h1
      refine ⟨y :: l, 0, ?_, ho, by omega⟩
      rw [adjust, if_neg]
      · simp
      · unfold openAt at ho; simp at ho; omega
    · rename_i ho
      obtain ⟨up, k, h1, h2, _⟩ := adjust_open s (y :: l) (lv + 1) c cs h
      refine ⟨up, k + 1, ?_, h2, fun _ => ⟨x, y :: l, rfl, by simpa using ho⟩⟩
      rw [adjust, if_pos, h1]
      · simp only [Prod.mk.injEq, true_and]; push_cast; omega
      · unfold openAt at ho; simp at ho; omega

/-- What is found at once does not depend on where the search would start over. -/
theorem loop_once (S : Schema) (a : Bool) (o o' : List PCtx) (l l' : Int) (F : Nat) (ctx : List PCtx) (lv : Int) (i : Nat)
    (w : Bytes) (pos : Nat) (rest : Bytes) (f : Found) (h : loop S a o l 1 ctx lv i w pos rest = .found f) :
    loop S a o' l' (F + 1) ctx lv i w pos rest = .found f := by
  rw [loop] at h ⊢
  split at h
  · exact absurd h (by simp)
  · exact absurd h (by simp)
  · rename_i w1 pos1 rest1 id1 e1
    split at h
    · exact absurd h (by simp)
    · rename_i hn
      rw [if_neg hn]
      split at h
      · exact absurd h (by simp)
      · exact absurd h (by simp)
      · rename_i w2 pos2 rest2 size e2
        simp only at h ⊢
        split at h
        · exact absurd h (by simp)
        · rename_i hn2
          rw [if_neg hn2]
          split at h
          · exact h
          · split at h
            · rename_i hl
              rw [if_pos hl]
              exact h
            · split at h
              · exact absurd h (by simp [loop])
              · exact absurd h (by simp)

theorem adjust_idem (s : Nat) (c : PCtx) (up : List PCtx) (lv : Int) (h : openAt s c = true) :
    adjust s (c :: up) lv = (c :: up, lv) := by
  cases up with
  | nil => rfl
  | cons x l =>
    rw [adjust, if_neg]
    unfold openAt at h; simp at h; omega

theorem findNext_doc_lv (S : Schema) (a : Bool) (F : Nat) (data : Bytes) (start : Nat) (rest : Bytes)
    (c : PCtx) (up : List PCtx) (lv : Int) (r : Nat) (d : Doc) (h : HeadFacts S r d) (ho : Offers S c.ref (docId d) r)
    (hdata : data.drop start = encode d ++ rest)
    (hend : c.endPos = -1 ∨ (start : Int) + (encode d).length ≤ c.endPos) :
    findNext S a (F + 1) data start (c :: up) lv = .found { headOf r start d with levels := lv } := by
  obtain ⟨h1, h8, hsz, n, hn⟩ := h.ok
  have hlen := encode_len S r d h
  have hidl := idField_len_wf _ n hn
  have hread := read_sizeField (docLen d) (docSize d) h1 h8 hsz
  obtain ⟨_, _, _, _, _, _, hfrom⟩ := idField_head _ n hn
  obtain ⟨ch, hch, hcr⟩ := createUsing_offers S (idField (docId d) ++ sizeField (docLen d) (docSize d)) n a c up _ r (hfrom _) ho
  have hne : ((docSize d : Nat) != 2 ^ (7 * docLen d) - 1) = true := by simp; omega
  have := findNext_head S a F data start c up lv (docId d) n (sizeField (docLen d) (docSize d)) (payload d ++ rest) hn
    (by rw [hread, sizeField_length]) (by rw [sizeField_length]; omega)
    (by rw [hdata, h.enc, List.append_assoc _ (payload d)])
    (by rw [sizeField_length]; omega)
    (by rw [hread]; intro _; simp only; omega) r ch hcr h.cls (by rw [hread]; simp only; rw [hne]; exact h.val)
  rw [this, headOf, sizeField_length, hread, hidl]
  simp only [hne, if_true, if_neg (show ¬ ch > 0 by omega)]

/-- The children, with the checksum as one. -/
def kids : Doc → List Doc
  | .elem _ _ _ => []
  | .group _ _ _ crc ch => (if crc then [.elem 0xBF 1 (leBytes 4 (Crc32.crc32 (encodeList ch)).toNat)] else []) ++ ch

/-- Documents that may stand in a context and whose values can be read. -/
def Conf (S : Schema) (env : Env) (c : Nat) (ds : List Doc) : Prop :=
  ∀ d ∈ ds, ∃ r n, Offers S c (docId d) r ∧ LoadsTo S env 0 r d n

theorem conf_of_loads (S : Schema) (env : Env) (c : Nat) : ∀ (ds : List Doc) (ns : List Node), LoadsToList S env 0 c ds ns → Conf S env c ds
  | [], _, _ => by intro d hd; simp at hd
  | d :: ds, ns, h => by
    rw [LoadsToList] at h
    obtain ⟨r, n, ns', h1, h2, h3, _⟩ := h
    intro x hx
    rcases List.mem_cons.1 hx with e | e
    · subst e; exact ⟨r, n, h1, h2⟩
    · exact conf_of_loads S env c ds ns' h3 x e

theorem encode_crc (data : Bytes) : encode (.elem 0xBF 1 (leBytes 4 (Crc32.crc32 data).toNat)) = crcElement data := by
  have hl : (leBytes 4 (Crc32.crc32 data).toNat).length = 4 := by simp [leBytes]
  rw [encode_elem, hl, crcElement]
  have : idField 0xBF = [0xBF] := by decide
  have h2 : sizeField 1 4 = [0x84] := by decide
  rw [this, h2]; rfl

theorem kids_payload (d : Doc) (r : Nat) (S : Schema) (env : Env) (n : Node) (h : LoadsTo S env 0 r d n) (hm : (S.ctx r).cls = .master) :
    encodeList (kids d) = payload d ∧ Conf S env r (kids d) := by
  cases d with
  | elem id len p =>
    simp only [LoadsTo] at h
    have := h.2.2.2
    unfold FlatNode at this
    rw [hm] at this
    exact this.elim
  | group id len fin crc ch =>
    rw [LoadsTo] at h
    obtain ⟨h1, h2, h3, h4, ns, h5, h6⟩ := h
    have hc := conf_of_loads S env r ch ns h5
    cases crc with
    | false => exact ⟨by simp [kids, payload], by simpa [kids] using hc⟩
    | true =>
      rw [if_pos rfl] at h6
      obtain ⟨⟨rc, ho, hcl⟩, _⟩ := h6
      refine ⟨?_, ?_⟩
      · simp only [kids, payload, if_true, List.singleton_append]
        rw [encodeList_cons, encode_crc]
      · intro x hx
        simp only [kids, if_true, List.singleton_append, List.mem_cons] at hx
        rcases hx with e | e
        · subst e
          have hl : (leBytes 4 (Crc32.crc32 (encodeList ch)).toNat).length = 4 := by simp [leBytes]
          refine ⟨rc, .crc ⟨0xBF, 4, 1, true, false, true⟩ (BitVec.ofNat 32 (leNat (leBytes 4 (Crc32.crc32 (encodeList ch)).toNat))),
            ho, ?_⟩
          simp only [LoadsTo, hl]
          refine ⟨ho.1, ⟨by omega, by omega, by decide, 1, by unfold WellFormedId; decide⟩, ?_, ?_⟩
          · rw [hcl]; decide
          · unfold FlatNode; rw [hcl]; simp only [hl]; rfl
        · exact hc x e

theorem places_kids (d : Doc) (s : Nat) : places s d = (docId d, (s : Int)) :: placesList (s + (idField (docId d)).length + docLen d) (kids d) := by
  cases d with
  | elem id len p => simp [places, kids, docId, placesList]
  | group id len fin crc ch =>
    rw [places, kids, docId, docLen]
    cases crc with
    | false => simp
    | true =>
      simp only [if_true, List.singleton_append, List.cons_append, List.nil_append]
      rw [placesList, encode_crc]
      have : (crcElement (encodeList ch)).length = 6 := by simp [crcElement, leBytes]
      rw [this]; simp [places]

/-- What is left of a file at `s`: the contexts, from the inside, each with the documents still to come. -/
def Rem (S : Schema) (env : Env) (data : Bytes) : Nat → List (PCtx × List Doc) → Prop
  | s, [] => data.drop s = []
  | s, (c, ds) :: fs => Conf S env c.ref ds ∧ data.drop s = encodeList ds ++ data.drop (s + (encodeList ds).length) ∧
      ((fs = [] ∧ c.endPos = -1) ∨ (fs ≠ [] ∧ c.endPos = s + (encodeList ds).length)) ∧
      Rem S env data (s + (encodeList ds).length) fs

/-- The listing of what is left. -/
def fut : Nat → List (PCtx × List Doc) → List (Nat × Int)
  | _, [] => []
  | s, (_, ds) :: fs => placesList s ds ++ fut (s + (encodeList ds).length) fs

/-- The contexts that reach behind `s`. -/
def tops (s : Nat) (fr : List (PCtx × List Doc)) : List PCtx := (fr.map (·.1)).filter (openAt s)

/-- The first of what is left is `d`, of context `r`. -/
structure First (S : Schema) (env : Env) (data : Bytes) (s r : Nat) (d : Doc) (fr : List (PCtx × List Doc)) : Prop where
  rem : Rem S env data s fr
  cur : ∃ c ds fs, fr = (c, d :: ds) :: fs ∧ Offers S c.ref (docId d) r
  load : ∃ n, LoadsTo S env 0 r d n

theorem doc_len (S : Schema) (r : Nat) (d : Doc) (h : HeadFacts S r d) : 2 ≤ (encode d).length := by
  obtain ⟨h1, h8, hsz, n, hn⟩ := h.ok
  have := idField_len_wf _ n hn
  have := encode_len S r d h
  have := hn.1
  omega

/-- The finder at what is left. -/
theorem find_rem (S : Schema) (env : Env) (data : Bytes) (s : Nat) (ch : List PCtx) (lv : Int) :
    ∀ fr : List (PCtx × List Doc), fr ≠ [] → Rem S env data s fr → ch.filter (openAt s) = tops s fr →
    (∃ k : Nat, findNext S true (data.length + 1) data s ch lv = .none (lv + k) s ∧ fut s fr = [] ∧ data.drop s = [] ∧
        ∀ c ∈ tops s fr, c.endPos = -1) ∨
    (∃ r d fr', ∃ k : Nat, findNext S true (data.length + 1) data s ch lv = .found { headOf r s d with levels := lv + k } ∧
      First S env data s r d fr' ∧ fut s fr' = fut s fr ∧ tops s fr' = tops s fr ∧
      (k > 0 → ∃ t up, ch = t :: up ∧ openAt s t = false))
  | [], h, _, _ => absurd rfl h
  | (c, []) :: fs, _, hr, he => by
    have hrr := hr
    simp only [Rem, encodeList, List.length_nil, Nat.add_zero, List.nil_append] at hr
    obtain ⟨_, _, hend, hrest⟩ := hr
    rcases hend with ⟨hfs, hc⟩ | ⟨hfs, hc⟩
    · subst hfs
      simp only [Rem] at hrest
      left
      have hop : openAt s c = true := by simp [openAt, hc]
      have ht : tops s [(c, [])] = [c] := by simp [tops, hop]
      rw [ht] at he
      obtain ⟨up, k, ha, _, _⟩ := adjust_open s ch lv c [] he
      refine ⟨k, ?_, by simp [fut, placesList, encodeList], hrest, by rw [ht]; simp [hc]⟩
      rw [findNext, ha, hrest]
      simp only
      rw [loop, idLoop]
      simp only [idMarker, limit, hc]
      rw [if_neg (by omega)]
    · have hop : openAt s c = false := by simp [openAt, hc]
      have ht : tops s ((c, []) :: fs) = tops s fs := by simp [tops, hop]
      have hf : fut s ((c, []) :: fs) = fut s fs := by simp [fut, placesList, encodeList]
      rw [ht, hf]
      rw [ht] at he
      exact find_rem S env data s ch lv fs hfs hrest he
  | (c, d :: ds) :: fs, _, hr, he => by
    right
    have hrr := hr
    simp only [Rem] at hr
    obtain ⟨hconf, hdata, hend, hrest⟩ := hr
    obtain ⟨r, n, ho, hl⟩ := hconf d (by simp)
    have hf := loadsTo_head S env 0 r d n hl
    have hlen := doc_len S r d hf
    rw [encodeList_cons, List.append_assoc] at hdata
    have hle : (encodeList (d :: ds)).length = (encode d).length + (encodeList ds).length := by rw [encodeList_cons, List.length_append]
    have hop : openAt s c = true := by
      unfold openAt
      rcases hend with ⟨_, hc⟩ | ⟨_, hc⟩
      · simp [hc]
      · rw [hle] at hc; simp; right; omega
    have ht : tops s ((c, d :: ds) :: fs) = c :: tops s fs := by simp [tops, hop]
    rw [ht] at he
    obtain ⟨up, k, ha, _, hk⟩ := adjust_open s ch lv c _ he
    refine ⟨r, d, _, k, ?_, ⟨hrr, ⟨c, ds, fs, rfl, ho⟩, ⟨n, hl⟩⟩, rfl, rfl, hk⟩
    have hfind := findNext_doc_lv S true 0 data s _ c up (lv + k) r d hf ho hdata (by
      rcases hend with ⟨_, hc⟩ | ⟨_, hc⟩
      · exact Or.inl hc
      · right; rw [hle] at hc; omega)
    rw [findNext, adjust_idem s c up _ hop] at hfind
    rw [findNext, ha]
    exact loop_once S true _ ch _ lv data.length _ _ _ _ _ _ _ hfind

/-- The element of document `d` at `s`, found with `l` levels. -/
def at' (r s : Nat) (d : Doc) (l : Int) : Found := { headOf r s d with levels := l }

theorem leafEnd_at (S : Schema) (env : Env) (data : Bytes) (s r : Nat) (d : Doc) (l : Int) (n : Node) (rest : Bytes)
    (h : LoadsTo S env 0 r d n) (hm : (S.ctx r).cls ≠ .master) (hdata : data.drop s = encode d ++ rest) :
    leafEnd S env data (at' r s d l) = some (s + (encode d).length) := by
  cases d with
  | group id len fin crc ch => rw [LoadsTo] at h; exact absurd h.2.2.2.1 hm
  | elem id len p =>
    have hf := loadsTo_head S env 0 r _ n h
    have hr := readFlat_at S env 0 r id len p n h data rest s hdata
    have he := headOf_end r s _ S hf
    have hr' : readFlat S env data (at' r s (.elem id len p) l) = .ok n (s + (encode (.elem id len p)).length) := by
      rw [← hr]; rfl
    have he' : (at' r s (.elem id len p) l).endPos.toNat = s + (encode (.elem id len p)).length := by
      rw [show (at' r s (.elem id len p) l).endPos = (headOf r s (.elem id len p)).endPos from rfl, he]; omega
    have hk : (at' r s (.elem id len p) l).kind.cls S = (S.ctx r).cls := rfl
    unfold leafEnd
    rw [hk]
    cases hc : (S.ctx r).cls <;> simp only [hr', he']

/-- What is true when an element, or a loop, is done: `s'` is where the file goes on. -/
def Goes (S : Schema) (env : Env) (data : Bytes) (ch : List PCtx) (s' : Nat) (fr' : List (PCtx × List Doc)) (next : Option Found) (p : Nat) : Prop :=
  fr' ≠ [] ∧ Rem S env data s' fr' ∧ ch.filter (openAt s') = tops s' fr' ∧
    match next with
    | none => p = s'
    | some g => p = g.streamPos.toNat ∧ ∃ r d l, g = at' r s' d l ∧ First S env data s' r d fr'

theorem after_done (ls l : List Shown) (n : Option Found) (lv : Int) (p : Nat) :
    (ShowRes.done l n lv p).after ls = .done (ls ++ l) n lv p := rfl

/-- The claim about an element. -/
def EltClaim (S : Schema) (env : Env) (data : Bytes) (fuel : Nat) : Prop :=
  ∀ (up : List PCtx) (lv : Int) (s r : Nat) (d : Doc) (l : Int) (fr : List (PCtx × List Doc)),
    First S env data s r d fr → up.filter (openAt s) = tops s fr → 2 * (data.length - s) ≤ fuel →
    ∃ ls next lv' p s' fr', showElt S env data fuel (some up) lv (at' r s d l) = .done ls next lv' p ∧ s < s' ∧
      Goes S env data up s' fr' next p ∧ fut s fr = ls.map (Shown.place S) ++ fut s' fr'

/-- The claim about the loop in context `m`. -/
def LoopClaim (S : Schema) (env : Env) (data : Bytes) (fuel : Nat) : Prop :=
  ∀ (m : PCtx) (up : List PCtx) (e : Found) (ue lv : Int) (sub : Option Found) (s pos : Nat) (fr : List (PCtx × List Doc)),
    (e.finite = true → e.endPos = m.endPos ∧ m.endPos ≠ -1) → (e.finite = false → m.endPos = -1) →
    Goes S env data (m :: up) s fr sub pos → (sub ≠ none → ue ≤ 0 ∨ openAt s m = false) →
    (sub = none → fut s fr = [] ∧ ∀ c ∈ tops s fr, c.endPos = -1) → 2 * (data.length - s) + 1 ≤ fuel →
    ∃ ls next lv' p s' fr', showLoop S env data fuel (m :: up) e ue lv sub pos = .done ls next lv' p ∧ s ≤ s' ∧
      Goes S env data (m :: up) s' fr' next p ∧ fut s fr = ls.map (Shown.place S) ++ fut s' fr' ∧
      (next = none → fut s' fr' = [] ∧ ∀ c ∈ tops s' fr', c.endPos = -1) ∧ (next ≠ none → openAt s' m = false)

theorem first_data (S : Schema) (env : Env) (data : Bytes) (s r : Nat) (d : Doc) (fr : List (PCtx × List Doc))
    (h : First S env data s r d fr) : s < data.length ∧ HeadFacts S r d ∧ ∃ rest, data.drop s = encode d ++ rest := by
  obtain ⟨hr, ⟨c, ds, fs, he, ho⟩, n, hl⟩ := h
  have hf := loadsTo_head S env 0 r d n hl
  subst he
  simp only [Rem] at hr
  have hd := hr.2.1
  rw [encodeList_cons, List.append_assoc] at hd
  refine ⟨?_, hf, _, hd⟩
  have h2 := doc_len S r d hf
  have := congrArg List.length hd
  rw [List.length_drop, List.length_append] at this
  omega

/-- Behind the first document. -/
theorem rem_tail (S : Schema) (env : Env) (data : Bytes) (s : Nat) (c : PCtx) (d : Doc) (ds : List Doc) (fs : List (PCtx × List Doc))
    (h : Rem S env data s ((c, d :: ds) :: fs)) : Rem S env data (s + (encode d).length) ((c, ds) :: fs) ∧
      fut s ((c, d :: ds) :: fs) = places s d ++ fut (s + (encode d).length) ((c, ds) :: fs) := by
  simp only [Rem] at h ⊢
  obtain ⟨h1, h2, h3, h4⟩ := h
  have hle : (encodeList (d :: ds)).length = (encode d).length + (encodeList ds).length := by rw [encodeList_cons, List.length_append]
  rw [hle, ← Nat.add_assoc] at h2 h4
  refine ⟨⟨fun x hx => h1 x (by simp [hx]), ?_, ?_, h4⟩, ?_⟩
  · rw [encodeList_cons, List.append_assoc] at h2
    have := congrArg (List.drop (encode d).length) h2
    rw [List.drop_drop, List.drop_left] at this
    exact this
  · rcases h3 with h | ⟨h, h'⟩
    · exact Or.inl h
    · right; refine ⟨h, ?_⟩; rw [h', hle]; push_cast; omega
  · simp only [fut, placesList]
    rw [hle, ← Nat.add_assoc, List.append_assoc]

/-- Inside the first document. -/
theorem rem_enter (S : Schema) (env : Env) (data : Bytes) (s r : Nat) (d : Doc) (n : Node) (c : PCtx) (ds : List Doc)
    (fs : List (PCtx × List Doc)) (h : Rem S env data s ((c, d :: ds) :: fs)) (hl : LoadsTo S env 0 r d n)
    (hm : (S.ctx r).cls = .master) :
    Rem S env data (s + (idField (docId d)).length + docLen d) ((⟨r, s + (encode d).length⟩, kids d) :: (c, ds) :: fs) ∧
    fut s ((c, d :: ds) :: fs) = (docId d, (s : Int)) ::
      fut (s + (idField (docId d)).length + docLen d) ((⟨r, s + (encode d).length⟩, kids d) :: (c, ds) :: fs) := by
  have hf := loadsTo_head S env 0 r d n hl
  obtain ⟨hk, hconf⟩ := kids_payload d r S env n hl hm
  obtain ⟨ht, hfut⟩ := rem_tail S env data s c d ds fs h
  have hlen := encode_len S r d hf
  have hkl : s + (idField (docId d)).length + docLen d + (encodeList (kids d)).length = s + (encode d).length := by
    rw [hk, hlen, docSize]; omega
  have hd : ∃ rest, data.drop s = encode d ++ rest := by
    simp only [Rem] at h
    have := h.2.1
    rw [encodeList_cons, List.append_assoc] at this
    exact ⟨_, this⟩
  obtain ⟨rest, hd⟩ := hd
  have hp := drop_payload S r d hf data rest s hd
  refine ⟨?_, ?_⟩
  · rw [Rem, hkl]
    refine ⟨hconf, ?_, Or.inr ⟨by simp, ?_⟩, ht⟩
    · have hd' : data.drop (s + (encode d).length) = rest := by rw [← List.drop_drop, hd, List.drop_left]
      rw [hp, hk, hd']
    · simp only; omega
  · rw [hfut, places_kids]
    simp only [List.cons_append]
    congr 1
    conv => rhs; rw [fut, hkl]

theorem elt_of_loop (S : Schema) (env : Env) (data : Bytes) (fuel : Nat) (hL : LoopClaim S env data fuel) :
    EltClaim S env data (fuel + 1) := by
  intro up lv s r d l fr hfirst hup hfuel
  obtain ⟨hs, hf, rest, hd⟩ := first_data S env data s r d fr hfirst
  obtain ⟨hrem, ⟨c, ds, fs, he, ho⟩, n, hl⟩ := hfirst
  subst he
  have h2 := doc_len S r d hf
  have hkind : (at' r s d l).kind = .known r := rfl
  have hplace : Shown.place S ⟨lv, .known r, s⟩ = (docId d, (s : Int)) := by
    simp only [Shown.place, hf.id]
  by_cases hm : (S.ctx r).cls = .master
  · obtain ⟨hrem1, hfut⟩ := rem_enter S env data s r d n c ds fs hrem hl hm
    have hend : (at' r s d l).endPos = s + (encode d).length := headOf_end r s d S hf
    have hpos : (at' r s d l).streamPos.toNat = s + (idField (docId d)).length + docLen d := by
      rw [show (at' r s d l).streamPos = (headOf r s d).streamPos from rfl]; simp only [headOf]; omega
    have h1 : s + 2 ≤ s + (idField (docId d)).length + docLen d := by
      obtain ⟨a1, _, _, m, am⟩ := hf.ok
      have := idField_len_wf _ m am
      have := am.1
      omega
    obtain ⟨s1, hs1⟩ : ∃ s1, s1 = s + (idField (docId d)).length + docLen d := ⟨_, rfl⟩
    rw [← hs1] at hrem1 hfut hpos h1
    obtain ⟨m, hmm⟩ : ∃ m : PCtx, m = ⟨r, s + (encode d).length⟩ := ⟨_, rfl⟩
    rw [← hmm] at hrem1 hfut
    have hup1 : (m :: up).filter (openAt s1) = tops s1 ((m, kids d) :: (c, ds) :: fs) := by
      have := filter_mono s s1 (by omega) up _ (show up.filter (openAt s) = (((c, ds) :: fs).map (·.1)).filter (openAt s) from hup)
      show _ = (m :: ((c, ds) :: fs).map (·.1)).filter (openAt s1)
      generalize ((c, ds) :: fs).map (·.1) = L at this ⊢
      simp only [List.filter_cons, this]
    have hfin : (at' r s d l).finite = true → (at' r s d l).endPos = m.endPos ∧ m.endPos ≠ -1 := by
      intro _
      rw [hend, hmm]
      exact ⟨rfl, by simp only; omega⟩
    have hinf : (at' r s d l).finite = false → m.endPos = -1 := fun h => by
      have : (at' r s d l).finite = true := rfl
      rw [this] at h; cases h
    have hfin' := hfin rfl
    have finish : ∀ (ue : Int) (sub : Option Found) (pos : Nat) (fr1 : List (PCtx × List Doc)),
        Goes S env data (m :: up) s1 fr1 sub pos → (sub ≠ none → ue ≤ 0 ∨ openAt s1 m = false) →
        (sub = none → fut s1 fr1 = [] ∧ ∀ c ∈ tops s1 fr1, c.endPos = -1) → fut s1 fr1 = fut s1 ((m, kids d) :: (c, ds) :: fs) →
        ∃ ls next lv' p s' fr', (showLoop S env data fuel (m :: up) (at' r s d l) ue lv sub pos).after [⟨lv, .known r, s⟩] =
          .done ls next lv' p ∧ s < s' ∧ Goes S env data up s' fr' next p ∧
          fut s ((c, d :: ds) :: fs) = ls.map (Shown.place S) ++ fut s' fr' := by
      intro ue sub pos fr1 hg hue hnone hfr1
      obtain ⟨ls, next, lv', p, s', fr', e1, e2, e3, e4, e5, e6⟩ :=
        hL m up (at' r s d l) ue lv sub s1 pos fr1 hfin hinf hg hue hnone (by omega)
      refine ⟨⟨lv, .known r, s⟩ :: ls, next, lv', p, s', fr', by rw [e1]; rfl, by omega, ?_, ?_⟩
      · obtain ⟨g1, g2, g3, g4⟩ := e3
        refine ⟨g1, g2, ?_, g4⟩
        have hclosed : openAt s' m = false := by
          cases hn : next with
          | some g => exact e6 (by rw [hn]; simp)
          | none =>
            cases ho : openAt s' m with
            | false => rfl
            | true =>
              exfalso
              rw [List.filter_cons, ho, if_pos rfl] at g3
              exact hfin'.2 ((e5 hn).2 m (by rw [← g3]; simp))
        rw [List.filter_cons, hclosed] at g3
        simpa using g3
      · rw [hfut, List.map_cons, hplace, ← hfr1, e4]; rfl
    unfold showElt
    simp only [hkind]
    rw [if_pos (show Kind.cls S (.known r) = .master from hm), hpos, hend]
    rw [show (⟨r, (s : Int) + ((encode d).length : Nat)⟩ : PCtx) = m from hmm.symm]
    rcases find_rem S env data s1 (m :: up) 0 _ (by simp) hrem1 hup1 with ⟨k, q1, q2, q3, q4⟩ | ⟨r', d', fr1, k, q1, q2, q3, q4, q5⟩
    · rw [q1]
      simp only
      refine finish (0 + k) none s1 _ ⟨by simp, hrem1, hup1, rfl⟩ (fun h => absurd rfl h) (fun _ => ⟨q2, q4⟩) rfl
    · rw [q1]
      simp only
      have hne : fr1 ≠ [] := by
        obtain ⟨_, _, _, e, _⟩ := q2.cur
        rw [e]; simp
      refine finish (0 + k) (some (at' r' s1 d' (0 + k))) _ fr1 ⟨hne, q2.rem, by rw [q4]; exact hup1, rfl, r', d', _, rfl, q2⟩ ?_
        (fun h => by cases h) q3
      intro _
      by_cases hk : k > 0
      · obtain ⟨t, up', e1, e2⟩ := q5 hk
        injection e1 with e1 _
        right; rw [e1]; exact e2
      · left; omega
  · obtain ⟨hrem1, hfut⟩ := rem_tail S env data s c d ds fs hrem
    unfold showElt
    simp only [hkind]
    rw [if_neg (show ¬ Kind.cls S (.known r) = .master from hm), leafEnd_at S env data s r d l n rest hl hm hd]
    simp only
    refine ⟨_, none, lv, _, s + (encode d).length, (c, ds) :: fs, rfl, by omega, ⟨by simp, hrem1, ?_, rfl⟩, ?_⟩
    · exact filter_mono s _ (by omega) up _ (show up.filter (openAt s) = (((c, ds) :: fs).map (·.1)).filter (openAt s) from hup)
    · rw [hfut]
      have : kids d = [] := by
        cases d with
        | elem => rfl
        | group id len fin crc ch => rw [LoadsTo] at hl; exact absurd hl.2.2.2.1 hm
      rw [places_kids, this]
      simp only [placesList, List.map_cons, List.map_nil]
      rw [show (at' r s d l).pos = (s : Int) from rfl, hplace]

theorem loop_of_elt (S : Schema) (env : Env) (data : Bytes) (fuel : Nat) (hE : EltClaim S env data fuel)
    (hL : LoopClaim S env data fuel) : LoopClaim S env data (fuel + 1) := by
  intro m up e ue lv sub s pos fr hfin hinf hg hue hnone hfuel
  cases sub with
  | none =>
    refine ⟨[], none, lv, pos, s, fr, by rw [showLoop], Nat.le_refl s, hg, rfl, hnone, by simp⟩
  | some g =>
    obtain ⟨g1, g2, g3, g4, r, d, l, g5, g6⟩ := hg
    rw [showLoop]
    by_cases hc : ue ≤ 0 ∧ (e.finite = false ∨ g.pos ≤ e.endPos)
    · rw [if_pos hc]
      subst g5
      obtain ⟨ls, next, lv', p, s', fr', e1, e2, e3, e4⟩ := hE (m :: up) (lv + 1) s r d l fr g6 g3 (by omega)
      rw [e1]
      have hs := (first_data S env data s r d fr g6).1
      have chain : ∀ (ue' : Int) (sub' : Option Found) (pos' : Nat) (lv2 : Int) (fr2 : List (PCtx × List Doc)),
          Goes S env data (m :: up) s' fr2 sub' pos' → (sub' ≠ none → ue' ≤ 0 ∨ openAt s' m = false) →
          (sub' = none → fut s' fr2 = [] ∧ ∀ c ∈ tops s' fr2, c.endPos = -1) → fut s' fr2 = fut s' fr' →
          ∃ ls' next lv' p s'' fr', (showLoop S env data fuel (m :: up) e ue' lv2 sub' pos').after ls = .done ls' next lv' p ∧ s ≤ s'' ∧
            Goes S env data (m :: up) s'' fr' next p ∧ fut s fr = ls'.map (Shown.place S) ++ fut s'' fr' ∧
            (next = none → fut s'' fr' = [] ∧ ∀ c ∈ tops s'' fr', c.endPos = -1) ∧ (next ≠ none → openAt s'' m = false) := by
        intro ue' sub' pos' lv2 fr2 k1 k2 k3 k4
        obtain ⟨ls2, next2, lv3, p2, s2, fr3, a1, a2, a3, a4, a5, a6⟩ :=
          hL m up e ue' lv2 sub' s' pos' fr2 hfin hinf k1 k2 k3 (by omega)
        refine ⟨ls ++ ls2, next2, lv3, p2, s2, fr3, by rw [a1]; rfl, by omega, a3, ?_, a5, a6⟩
        rw [e4, ← k4, a4, List.map_append, List.append_assoc]
      cases next with
      | some h =>
        simp only
        refine chain ue (some h) p _ fr' e3 (fun _ => Or.inl hc.1) (fun h => by cases h) rfl
      | none =>
        simp only
        obtain ⟨b1, b2, b3, b4⟩ := e3
        subst b4
        rcases find_rem S env data p (m :: up) ue fr' b1 b2 b3 with ⟨k, q1, q2, q3, q4⟩ | ⟨r', d', fr1, k, q1, q2, q3, q4, q5⟩
        · rw [q1]
          simp only
          exact chain _ none p _ fr' ⟨b1, b2, b3, rfl⟩ (fun h => absurd rfl h) (fun _ => ⟨q2, q4⟩) rfl
        · rw [q1]
          simp only
          have hne : fr1 ≠ [] := by
            obtain ⟨_, _, _, e, _⟩ := q2.cur
            rw [e]; simp
          refine chain _ (some (at' r' p d' (ue + k))) _ _ fr1 ⟨hne, q2.rem, by rw [q4]; exact b3, rfl, r', d', _, rfl, q2⟩ ?_
            (fun h => by cases h) q3
          intro _
          by_cases hk : k > 0
          · obtain ⟨t, up', e1, e2⟩ := q5 hk
            injection e1 with e1 _
            right; rw [e1]; exact e2
          · left; omega
    · rw [if_neg hc]
      refine ⟨[], some g, lv, pos, s, fr, rfl, Nat.le_refl s, ⟨g1, g2, g3, g4, r, d, l, g5, g6⟩, rfl, by simp, fun _ => ?_⟩
      rcases hue (by simp) with h | h
      · have hgp : g.pos = (s : Int) := by rw [g5]; rfl
        cases hf : e.finite with
        | false => exact absurd ⟨h, Or.inl hf⟩ hc
        | true =>
          obtain ⟨f1, f2⟩ := hfin hf
          have : ¬ g.pos ≤ e.endPos := fun q => hc ⟨h, Or.inr q⟩
          rw [hgp, f1] at this
          unfold openAt
          simp only [Bool.or_eq_false_iff, beq_eq_false_iff_ne, decide_eq_false_iff_not]
          exact ⟨f2, by omega⟩
      · exact h

end Verif.Ebml.Scan
