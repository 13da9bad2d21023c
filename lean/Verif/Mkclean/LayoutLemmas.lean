import Verif.Mkclean.Layout
import Verif.Ebml.EltLemmas
/-! Lemmas about the layout of Clusters and Cues. -/
set_option linter.unusedSimpArgs false
namespace Verif.Mkclean
open Verif.Ebml Verif.EbmlDoc

theorem natural_mono (a b : BitVec 64) (h : a.toNat ≤ b.toNat) : naturalSizeInt a ≤ naturalSizeInt b := by
  unfold naturalSizeInt
  (repeat' split) <;> omega

theorem coded_mono (a b : Int) (k : Nat) (h : a ≤ b) : codedSizeLength a k true ≤ codedSizeLength b k true := by
  unfold codedSizeLength
  simp only [Bool.not_true, Bool.false_eq_true, if_false]
  (repeat' split) <;> omega

theorem coded_small (a : Int) (h : a < 127) : codedSizeLength a 0 true = 1 := by
  simp [codedSizeLength, h]

/-- Bytes of one CuePoint. -/
def pointSize (c : Cue) : Nat :=
  (if c.crc ≠ 0 then 6 else 0) + 10 + naturalSizeInt c.time + naturalSizeInt c.track + naturalSizeInt c.pos

theorem update_uint (env : Env) (id : Nat) (v : BitVec 64) :
    update env false (newUint id v) =
      .leaf { newBase id with dataSize := naturalSizeInt v, needUpdate := false } none (.uint v) := by
  have := (natural_uint v).1
  simp only [newUint, newBase, update, isDefault, needs, Leaf.always, Leaf.natural, Leaf.defaultSize, baseUpdate]
  simp
  omega

theorem fullSize_uint (env : Env) (id : Nat) (v : BitVec 64) (hid : idLength id = 1) :
    fullSizeBase (update env false (newUint id v)).base = 2 + naturalSizeInt v := by
  have := natural_uint v
  rw [update_uint]
  simp only [Elt.base, fullSizeBase, newBase, hid]
  rw [coded_small _ (by omega)]; omega

theorem update_uint_ne (env : Env) (id : Nat) (v : BitVec 64) :
    (update env false (newUint id v)).base.dataSize ≠ -1 := by
  have := natural_uint v
  rw [update_uint]
  simp only [Elt.base, newBase]; omega

theorem isDefault_uint (env : Env) (id : Nat) (v : BitVec 64) : isDefault env (newUint id v) = false := rfl

theorem needs_uint (env : Env) (id : Nat) (v : BitVec 64) : needs env false (newUint id v) = true := by
  simp [newUint, newBase, needs, isDefault]

/-- Sizes of a master flagged for update, from its list loop. -/
theorem update_master_data (env : Env) (b : Base) (crc : Nat) (ch ch' : List Elt) (total : Int)
    (hb : b.needUpdate = true) (ht : 0 ≤ total)
    (h : updateList env false ch (if crc ≠ 0 then 6 else 0) = (ch', total, true)) :
    (update env false (.master b crc ch)).base = { b with dataSize := total, needUpdate := false } := by
  have hn : needs env false (.master b crc ch) = true := by simp [needs, hb]
  rw [update, if_pos hn, h]
  simp only [Elt.base, baseUpdate, Bool.false_eq_true, if_false]
  rw [if_neg (by omega)]

theorem updateList_cons (env : Env) (e : Elt) (es ch' : List Elt) (acc total : Int)
    (hd : isDefault env e = false) (hne : (update env false e).base.dataSize ≠ -1)
    (h : updateList env false es (acc + fullSizeBase (update env false e).base) = (ch', total, true)) :
    updateList env false (e :: es) acc = (update env false e :: ch', total, true) := by
  simp [updateList, hd, hne, h]

theorem cuePoint_size (env : Env) (crc : Nat) (t k p : BitVec 64) :
    (update env false (cuePointElt crc t k p)).base.dataSize =
      (if crc ≠ 0 then 6 else 0) + 8 + naturalSizeInt t + naturalSizeInt k + naturalSizeInt p := by
  have ht := natural_uint t
  have hk := natural_uint k
  have hp := natural_uint p
  have h7 : (update env false (.master (newBase 0xB7) 0 [newUint 0xF7 k, newUint 0xF1 p])).base =
      ⟨0xB7, 4 + naturalSizeInt k + naturalSizeInt p, 0, true, false, true⟩ := by
    apply update_master_data env _ 0 _ _ _ rfl (by omega)
    apply updateList_cons env _ _ _ _ _ (isDefault_uint ..) (update_uint_ne _ _ _)
    apply updateList_cons env _ _ [] _ _ (isDefault_uint ..) (update_uint_ne _ _ _)
    rw [fullSize_uint env _ k (by decide), fullSize_uint env _ p (by decide)]
    simp only [updateList, Prod.mk.injEq, true_and, and_true]
    simp; omega
  have hB : (update env false (cuePointElt crc t k p)).base =
      ⟨0xBB, (if crc ≠ 0 then 6 else 0) + 8 + naturalSizeInt t + naturalSizeInt k + naturalSizeInt p, 0,
        true, false, true⟩ := by
    unfold cuePointElt
    apply update_master_data env _ crc _ _ _ rfl (by split <;> omega)
    apply updateList_cons env _ _ _ _ _ (isDefault_uint ..) (update_uint_ne _ _ _)
    apply updateList_cons env _ _ [] _ _ rfl (by rw [h7]; simp only; omega)
    rw [h7, fullSize_uint env _ t (by decide)]
    simp only [fullSizeBase, newBase]
    rw [coded_small _ (by omega), show idLength 0xB7 = 1 by decide]
    simp only [updateList, Prod.mk.injEq, true_and, and_true]
    split <;> omega
  rw [hB]

theorem cuePoint_full (env : Env) (c : Cue) :
    fullSizeBase (update env false (cuePointElt c.crc c.time c.track c.pos)).base = pointSize c := by
  have h := cuePoint_size env c.crc c.time c.track c.pos
  have ht := natural_uint c.time
  have hk := natural_uint c.track
  have hp := natural_uint c.pos
  have hb : (update env false (cuePointElt c.crc c.time c.track c.pos)).base.sizeLength = 0 ∧
      (update env false (cuePointElt c.crc c.time c.track c.pos)).base.finite = true ∧
      (update env false (cuePointElt c.crc c.time c.track c.pos)).base.id = 0xBB := by
    unfold cuePointElt
    rw [update]
    split
    · split <;> simp [Elt.base, newBase, baseUpdate]
    · simp [Elt.base, newBase, baseUpdate]
  simp only [fullSizeBase, hb.1, hb.2.1, hb.2.2, h]
  rw [coded_small _ (by split <;> omega), show idLength 0xBB = 1 by decide]
  unfold pointSize
  split <;> omega

/-- Payload of the Cues. -/
def pointsSize (ps : List Cue) : Nat := (ps.map pointSize).sum

theorem points_update (env : Env) : ∀ (ps : List Cue) (acc : Int), ∃ ch',
    updateList env false (ps.map fun p => cuePointElt p.crc p.time p.track p.pos) acc =
      (ch', acc + pointsSize ps, true) := by
  intro ps
  induction ps with
  | nil => intro acc; exact ⟨[], by simp [updateList, pointsSize]⟩
  | cons p ps ih =>
    intro acc
    obtain ⟨ch', h⟩ := ih (acc + pointSize p)
    refine ⟨update env false (cuePointElt p.crc p.time p.track p.pos) :: ch', ?_⟩
    rw [List.map_cons]
    apply updateList_cons env _ _ _ _ _ rfl
    · rw [cuePoint_size]; split <;> omega
    · rw [cuePoint_full, h]
      simp only [pointsSize, List.map_cons, List.sum_cons]
      congr 2; omega

theorem cues_size (env : Env) (c : Cues) :
    (update env false c.elt).base.dataSize = (if c.crc ≠ 0 then 6 else 0) + (pointsSize c.points : Int) := by
  obtain ⟨ch', h⟩ := points_update env c.points (if c.crc ≠ 0 then 6 else 0)
  unfold Cues.elt
  rw [update_master_data env _ c.crc _ ch' _ rfl (by split <;> omega) h]

/-- The tree of the Cues is in a coherent state. -/
theorem cues_coherent (env : Env) (c : Cues) (hs : c.sizeLength ≤ 8) : Coherent env false c.elt := by
  have hp : ∀ ps : List Cue, CoherentList env false (ps.map fun p => cuePointElt p.crc p.time p.track p.pos) := by
    intro ps
    induction ps with
    | nil => simp [CoherentList]
    | cons p ps ih =>
      rw [List.map_cons]
      refine ⟨fun _ => ?_, ih⟩
      simp [CoherentList, cuePointElt, Coherent, newUint, newBase, LeafReady, needs]
  unfold Cues.elt
  simp only [Coherent]
  exact ⟨trivial, by decide, hs, hp _, fun h => by simp [needs] at h⟩

/-- The Cues take as many bytes as their full size says, once their size was updated. -/
theorem cues_bytes (env : Env) (c : Cues) (hs : c.sizeLength ≤ 8)
    (hd : c.dataSize = (if c.crc ≠ 0 then 6 else 0) + (pointsSize c.points : Int)) :
    c.fullSize = (encode (toDoc env false c.elt)).length := by
  have hu := updated env false c.elt rfl (cues_coherent env c hs)
  rw [← hu.size]
  obtain ⟨ch', h⟩ := points_update env c.points (if c.crc ≠ 0 then 6 else 0)
  have hb : (update env false c.elt).base = ⟨0x1C53BB6B, c.dataSize, c.sizeLength, true, false, true⟩ := by
    unfold Cues.elt
    rw [update_master_data env _ c.crc _ ch' _ rfl (by split <;> omega) h, hd]
  rw [hb]; rfl

theorem fullSize_pos_irrel (c : Clu) (p : Int) : ({ c with pos := p } : Clu).fullSize = c.fullSize := rfl

/-- A second pass over the Clusters forgets the first. -/
theorem place_idem (safe : Bool) : ∀ (cs : List Clu) (p q : Int) (prev : Option Int),
    place safe q prev (place safe p prev cs) = place safe q prev cs := by
  intro cs
  induction cs with
  | nil => intros; rfl
  | cons c cs ih =>
    intro p q prev
    simp only [place]
    cases safe <;> cases prev <;> simp only [Bool.false_eq_true, if_false, if_true] <;>
      simp only [List.cons.injEq, true_and] <;> exact ih _ _ _

theorem place_length (safe : Bool) : ∀ (cs : List Clu) (p : Int) (prev : Option Int),
    (place safe p prev cs).length = cs.length := by
  intro cs
  induction cs with
  | nil => intros; rfl
  | cons c cs ih => intro p prev; simp [place, ih]

/-- Sizes do not depend on where the first Cluster is. -/
theorem place_sizes (safe : Bool) : ∀ (cs : List Clu) (p q : Int) (prev : Option Int),
    (place safe p prev cs).map Clu.fullSize = (place safe q prev cs).map Clu.fullSize := by
  intro cs
  induction cs with
  | nil => intros; rfl
  | cons c cs ih =>
    intro p q prev
    simp only [place, List.map_cons, List.cons.injEq]
    exact ⟨rfl, ih _ _ _⟩

theorem place_pos (safe : Bool) : ∀ (cs : List Clu) (p : Int) (prev : Option Int) (k : Nat) (c : Clu),
    (place safe p prev cs)[k]? = some c → c.pos = p + (((place safe p prev cs).map Clu.fullSize).take k).sum := by
  intro cs
  induction cs with
  | nil => intro p prev k c h; simp [place] at h
  | cons c0 cs ih =>
    intro p prev k c h
    cases k with
    | zero =>
      simp only [place, List.getElem?_cons_zero, Option.some.injEq] at h
      rw [← h]; simp
    | succ k =>
      simp only [place, List.getElem?_cons_succ] at h
      have := ih _ _ k c h
      rw [this]
      simp only [place, List.map_cons, List.take_succ_cons, List.sum_cons]
      omega

/-- Behind the first Cluster each PrevSize is the size of the Cluster before. -/
theorem place_prev : ∀ (cs : List Clu) (p : Int) (prev : Option Int) (k : Nat) (a b : Clu),
    (place true p prev cs)[k]? = some a → (place true p prev cs)[k + 1]? = some b →
    b.prevSize = some (BitVec.ofInt 64 a.fullSize) := by
  intro cs
  induction cs with
  | nil => intro p prev k a b h; simp [place] at h
  | cons c0 cs ih =>
    intro p prev k a b ha hb
    cases k with
    | zero =>
      simp only [place, List.getElem?_cons_zero, Option.some.injEq, List.getElem?_cons_succ, Nat.zero_add] at ha hb
      cases cs with
      | nil => simp [place] at hb
      | cons c1 cs =>
        simp only [place, List.getElem?_cons_zero, Option.some.injEq] at hb
        rw [← hb, ← ha]
        simp
    | succ k =>
      simp only [place, List.getElem?_cons_succ] at ha hb
      exact ih _ _ k a b ha hb

/-- What a pass keeps of a Cluster. -/
theorem place_keeps (safe : Bool) : ∀ (cs : List Clu) (p : Int) (prev : Option Int),
    (place safe p prev cs).map (fun c => (c.body, c.sizeLength)) = cs.map (fun c => (c.body, c.sizeLength)) := by
  intro cs
  induction cs with
  | nil => intros; rfl
  | cons c cs ih => intro p prev; simp [place, ih]

theorem fullSize_nonneg (c : Clu) : 0 ≤ c.fullSize := by
  simp only [Clu.fullSize, fullSizeBase]; omega

theorem sum_take_nonneg : ∀ (l : List Clu) (k : Nat), 0 ≤ ((l.map Clu.fullSize).take k).sum := by
  intro l
  induction l with
  | nil => intro k; simp
  | cons c l ih =>
    intro k
    cases k with
    | zero => simp
    | succ k =>
      have := ih k
      have := fullSize_nonneg c
      simp only [List.map_cons, List.take_succ_cons, List.sum_cons]; omega

theorem sum_take_le : ∀ (l : List Clu) (k : Nat), ((l.map Clu.fullSize).take k).sum ≤ (l.map Clu.fullSize).sum := by
  intro l
  induction l with
  | nil => intro k; simp
  | cons c l ih =>
    intro k
    cases k with
    | zero =>
      have h1 := sum_take_nonneg (c :: l) (c :: l).length
      rw [List.take_of_length_le (by simp)] at h1
      simpa using h1
    | succ k =>
      have := ih k
      simp only [List.map_cons, List.take_succ_cons, List.sum_cons]; omega

/-! The iteration on sizes. -/

/-- Repeat `f` until it returns what it was given. -/
def run (f : Int → Int) : Nat → Int → Option Int
  | 0, _ => none
  | n + 1, s => if f s = s then some s else run f n (f s)

theorem run_fix (f : Int → Int) : ∀ (n : Nat) (s r : Int), run f n s = some r → f r = r := by
  intro n
  induction n with
  | zero => intro s r h; simp [run] at h
  | succ n ih =>
    intro s r h
    rw [run] at h
    by_cases hf : f s = s
    · rw [if_pos hf] at h
      cases h; exact hf
    · rw [if_neg hf] at h
      exact ih _ _ h

theorem run_more (f : Int → Int) : ∀ (n m : Nat) (s r : Int), n ≤ m → run f n s = some r → run f m s = some r := by
  intro n
  induction n with
  | zero => intro m s r _ h; simp [run] at h
  | succ n ih =>
    intro m s r hm h
    obtain ⟨m, rfl⟩ : ∃ k, m = k + 1 := ⟨m - 1, by omega⟩
    rw [run] at h ⊢
    by_cases hf : f s = s
    · rw [if_pos hf] at h ⊢; exact h
    · rw [if_neg hf] at h ⊢; exact ih m _ _ (by omega) h

section
variable (f : Int → Int) (lo B : Int) (w : Nat)

theorem run_up (hm : ∀ a b, 0 ≤ a → a ≤ b → b ≤ B → f a ≤ f b) (hB : lo + w ≤ B) (hhi : ∀ a, f a ≤ lo + w) :
    ∀ (n : Nat) (s : Int), 0 ≤ s → s ≤ f s → lo + w - s ≤ n → ∃ r, run f (n + 1) s = some r := by
  intro n
  induction n with
  | zero =>
    intro s h0 hs hn
    refine ⟨s, ?_⟩
    have := hhi s
    rw [run, if_pos (by omega)]
  | succ n ih =>
    intro s h0 hs hn
    rw [run]
    by_cases hf : f s = s
    · rw [if_pos hf]; exact ⟨s, rfl⟩
    · rw [if_neg hf]
      have := hhi s
      exact ih (f s) (by omega) (hm _ _ h0 hs (by omega)) (by omega)

theorem run_down (hm : ∀ a b, 0 ≤ a → a ≤ b → b ≤ B → f a ≤ f b) (h0 : 0 ≤ lo) (hlo : ∀ a, lo ≤ f a) :
    ∀ (n : Nat) (s : Int), s ≤ B → f s ≤ s → s - lo ≤ n → ∃ r, run f (n + 1) s = some r := by
  intro n
  induction n with
  | zero =>
    intro s _ hs hn
    refine ⟨s, ?_⟩
    have := hlo s
    rw [run, if_pos (by omega)]
  | succ n ih =>
    intro s hb hs hn
    rw [run]
    by_cases hf : f s = s
    · rw [if_pos hf]; exact ⟨s, rfl⟩
    · rw [if_neg hf]
      have := hlo s
      exact ih (f s) (by omega) (hm _ _ (by omega) hs hb) (by omega)

/-- A monotone function with values in an interval of `w + 1` numbers settles within `w + 2` steps. -/
theorem run_settles (hm : ∀ a b, 0 ≤ a → a ≤ b → b ≤ B → f a ≤ f b) (h0 : 0 ≤ lo) (hB : lo + w ≤ B)
    (hlo : ∀ a, lo ≤ f a) (hhi : ∀ a, f a ≤ lo + w) (s : Int) (hs0 : 0 ≤ s) (hsB : s ≤ B) :
    ∃ r, run f (w + 2) s = some r := by
  rw [run]
  by_cases hf : f s = s
  · rw [if_pos hf]; exact ⟨s, rfl⟩
  · rw [if_neg hf]
    have h1 := hlo s
    have h2 := hhi s
    rcases Int.le_total s (f s) with h | h
    · exact run_up f lo B w hm hB hhi w (f s) (by omega) (hm _ _ hs0 h (by omega)) (by omega)
    · exact run_down f lo B hm h0 hlo w (f s) (by omega) (hm _ _ (by omega) h hsB) (by omega)

end

/-! One pass in terms of the size of the Cues. -/

section
variable (safe : Bool) (start seg : Int) (crc sl : Nat) (C : List Clu) (P : List Cue)

/-- Full size of Cues with a payload of `s` bytes. -/
def cuesFull (s : Int) : Int := fullSizeBase ⟨0x1C53BB6B, s, sl, true, true, true⟩

/-- Distance from the first Cluster to Cluster number `k`. -/
def offset (k : Nat) : Int := (((place safe 0 none C).map Clu.fullSize).take k).sum

/-- The CuePoint after a pass with Cues of payload `s`. -/
def retarget (s : Int) (c : Cue) : Cue :=
  { c with pos := BitVec.ofInt 64 (start + cuesFull sl s + offset safe C (c.cluster.getD 0) - seg) }

/-- Payload of the Cues after a pass with Cues of payload `s`. -/
def nextSize (s : Int) : Int :=
  (if crc ≠ 0 then 6 else 0) + (pointsSize (P.map (retarget safe start seg sl C s)) : Int)

/-- Every CuePoint is linked to a Block of one of the Clusters. -/
def Linked (n : Nat) (ps : List Cue) : Prop := ∀ c ∈ ps, ∃ k, c.cluster = some k ∧ k < n

theorem updateCues_eq (s : Int) (cl : List Clu) (hcl : ∀ p, place safe p none cl = place safe p none C)
    (hlen : cl.length = C.length) :
    ∀ ps : List Cue, Linked C.length ps →
    updateCues (place safe (start + cuesFull sl s) none cl) seg ps = some (ps.map (retarget safe start seg sl C s)) := by
  intro ps
  induction ps with
  | nil => intro _; rfl
  | cons c ps ih =>
    intro h
    obtain ⟨k, hk, hlt⟩ := h c (by simp)
    have ih := ih (fun d hd => h d (by simp [hd]))
    have hk2 : k < (place safe (start + cuesFull sl s) none cl).length := by rw [place_length]; omega
    obtain ⟨x, hx⟩ : ∃ x, (place safe (start + cuesFull sl s) none cl)[k]? = some x :=
      ⟨_, List.getElem?_eq_getElem hk2⟩
    have hp := place_pos safe cl _ none k x hx
    have hc : updateCue (place safe (start + cuesFull sl s) none cl) seg c =
        some (retarget safe start seg sl C s c) := by
      simp only [updateCue, hk, hx, retarget, Option.getD_some, offset, hp]
      rw [hcl, place_sizes safe C _ 0 none]
    simp only [updateCues, hc, ih, List.map_cons]

theorem retarget_retarget (s t : Int) (c : Cue) :
    retarget safe start seg sl C s (retarget safe start seg sl C t c) = retarget safe start seg sl C s c := rfl

/-- The recursion, in terms of the payload of the Cues. -/
theorem settle_run (env : Env) (hP : Linked C.length P) : ∀ (fuel : Nat) (cl : List Clu) (ps : List Cue) (s : Int),
    (∀ p, place safe p none cl = place safe p none C) → cl.length = C.length → Linked C.length ps →
    (∀ t, ps.map (retarget safe start seg sl C t) = P.map (retarget safe start seg sl C t)) →
    settle env safe start seg fuel cl ⟨crc, s, sl, ps⟩ =
      match run (nextSize safe start seg crc sl C P) fuel s with
      | none => .more
      | some r => .done (place safe (start + cuesFull sl r) none C)
          ⟨crc, r, sl, P.map (retarget safe start seg sl C r)⟩ := by
  intro fuel
  induction fuel with
  | zero => intros; rfl
  | succ fuel ih =>
    intro cl ps s hcl hlen hps hmap
    have hfull : (⟨crc, s, sl, ps⟩ : Cues).fullSize = cuesFull sl s := rfl
    rw [settle, hfull]
    simp only [updateCues_eq safe start seg sl C s cl hcl hlen ps hps, cues_size]
    rw [hmap s]
    have hnext : ((if crc ≠ 0 then 6 else 0) + (pointsSize (P.map (retarget safe start seg sl C s)) : Int)) =
        nextSize safe start seg crc sl C P s := rfl
    rw [hnext, run]
    by_cases hf : nextSize safe start seg crc sl C P s = s
    · rw [if_pos hf, if_pos hf, hcl]; simp only [hf]
    · rw [if_neg hf, if_neg hf]
      apply ih
      · intro p
        rw [hcl, place_idem safe]
      · rw [place_length, hlen]
      · intro c hc
        obtain ⟨d, hd, rfl⟩ := List.mem_map.1 hc
        exact hP d hd
      · intro t
        rw [List.map_map]
        rfl

theorem cuesFull_mono (a b : Int) (h : a ≤ b) : cuesFull sl a ≤ cuesFull sl b := by
  have := coded_mono a b sl h
  simp only [cuesFull, fullSizeBase]; omega

theorem cuesFull_range (s : Int) (hs : sl ≤ 8) : s + 4 ≤ cuesFull sl s ∧ cuesFull sl s ≤ s + 12 := by
  simp only [cuesFull, fullSizeBase, show idLength 0x1C53BB6B = 4 by decide]
  have : codedSizeLength s sl true ≤ 8 := by
    unfold codedSizeLength
    simp only [Bool.not_true, Bool.false_eq_true, if_false]
    (repeat' split) <;> omega
  omega

theorem clu_full_le (c : Clu) (hs : c.sizeLength ≤ 8) : c.fullSize ≤ c.body + 22 := by
  have : codedSizeLength (c.dataSize : Int) c.sizeLength true ≤ 8 := by
    unfold codedSizeLength
    simp only [Bool.not_true, Bool.false_eq_true, if_false]
    (repeat' split) <;> omega
  have hd : c.dataSize ≤ c.body + 10 := by
    unfold Clu.dataSize
    cases h : c.prevSize with
    | none => simp
    | some v =>
      have := natural_uint v
      simp only; omega
  simp only [Clu.fullSize, fullSizeBase, show idLength 0x1F43B675 = 4 by decide]
  omega

theorem total_le : ∀ (cs : List Clu) (p : Int) (prev : Option Int), (∀ c ∈ cs, c.sizeLength ≤ 8) →
    ((place safe p prev cs).map Clu.fullSize).sum ≤ ((cs.map (fun c => c.body + 22)).sum : Nat) := by
  intro cs
  induction cs with
  | nil => intro p prev _; simp [place]
  | cons c cs ih =>
    intro p prev h
    simp only [place]
    generalize hc : (Clu.mk c.body c.sizeLength _ p) = c1
    have hb : c1.body = c.body := by rw [← hc]
    have hl : c1.sizeLength = c.sizeLength := by rw [← hc]
    have h1 := ih (p + c1.fullSize) (some c1.fullSize) (fun d hd => h d (by simp [hd]))
    have h2 := clu_full_le c1 (by rw [hl]; exact h c (by simp))
    simp only [List.map_cons, List.sum_cons]
    omega

theorem offset_range (k : Nat) (h : ∀ c ∈ C, c.sizeLength ≤ 8) :
    0 ≤ offset safe C k ∧ offset safe C k ≤ ((C.map (fun c => c.body + 22)).sum : Nat) := by
  have h1 := sum_take_nonneg (place safe 0 none C) k
  have h2 := sum_take_le (place safe 0 none C) k
  have h3 := total_le safe C 0 none h
  unfold offset
  omega

theorem ofInt_toNat (i : Int) (h0 : 0 ≤ i) (h1 : i < 2 ^ 63) : ((BitVec.ofInt 64 i).toNat : Int) = i := by
  rw [BitVec.toNat_ofInt]
  simp only [Int.reducePow, Nat.reducePow] at *
  omega

theorem pointsSize_mono (f g : Cue → Cue) : ∀ ps : List Cue, (∀ c ∈ ps, pointSize (f c) ≤ pointSize (g c)) →
    pointsSize (ps.map f) ≤ pointsSize (ps.map g) := by
  intro ps
  induction ps with
  | nil => intro _; simp [pointsSize]
  | cons c ps ih =>
    intro h
    have h1 := ih (fun d hd => h d (by simp [hd]))
    have h2 := h c (by simp)
    simp only [pointsSize, List.map_cons, List.sum_cons, List.map_map] at *
    omega

theorem pointSize_pos (c : Cue) (p q : BitVec 64) :
    pointSize { c with pos := p } + naturalSizeInt q = pointSize { c with pos := q } + naturalSizeInt p := by
  simp only [pointSize]; omega

/-- Payload of the Cues if every CueClusterPosition took one byte. -/
def leastSize : Int :=
  (if crc ≠ 0 then 6 else 0) + (pointsSize (P.map fun c => { c with pos := 0 }) : Int)

theorem nextSize_lo (s : Int) : leastSize crc P ≤ nextSize safe start seg crc sl C P s := by
  have := pointsSize_mono (fun c => { c with pos := 0 }) (retarget safe start seg sl C s) P (by
    intro c _
    have h1 := (natural_uint (retarget safe start seg sl C s c).pos).1
    have h2 := pointSize_pos c 0 (retarget safe start seg sl C s c).pos
    rw [show naturalSizeInt 0 = 1 by decide] at h2
    have h3 : pointSize (retarget safe start seg sl C s c) =
      pointSize { c with pos := (retarget safe start seg sl C s c).pos } := rfl
    omega)
  unfold leastSize nextSize
  omega

theorem pointsSize_hi (s : Int) : ∀ P : List Cue, pointsSize (P.map (retarget safe start seg sl C s)) ≤
    pointsSize (P.map fun c => { c with pos := 0 }) + 7 * P.length := by
  intro P
  induction P with
  | nil => simp [pointsSize]
  | cons c P ih =>
    have := (natural_uint (retarget safe start seg sl C s c).pos).2
    simp only [pointsSize, List.map_cons, List.sum_cons, List.map_map, List.length_cons] at *
    have : pointSize (retarget safe start seg sl C s c) ≤ pointSize { c with pos := 0 } + 7 := by
      have h2 := pointSize_pos c 0 (retarget safe start seg sl C s c).pos
      rw [show naturalSizeInt 0 = 1 by decide] at h2
      have h3 : pointSize (retarget safe start seg sl C s c) =
        pointSize { c with pos := (retarget safe start seg sl C s c).pos } := rfl
      omega
    omega

theorem nextSize_hi (s : Int) :
    nextSize safe start seg crc sl C P s ≤ leastSize crc P + (7 * P.length : Nat) := by
  have := pointsSize_hi safe start seg sl C s P
  unfold leastSize nextSize
  omega

theorem leastSize_range : 0 ≤ leastSize crc P ∧ leastSize crc P ≤ 6 + 33 * (P.length : Int) := by
  have h : ∀ P : List Cue, pointsSize (P.map fun c => { c with pos := 0 }) ≤ 33 * P.length := by
    intro P
    induction P with
    | nil => simp [pointsSize]
    | cons c P ih =>
      have h1 := (natural_uint c.time).2
      have h2 := (natural_uint c.track).2
      simp only [pointsSize, List.map_cons, List.sum_cons, List.map_map, List.length_cons] at *
      have : pointSize { c with pos := 0 } ≤ 33 := by
        simp only [pointSize, show naturalSizeInt 0 = 1 by decide]
        split <;> omega
      omega
  have := h P
  unfold leastSize
  split <;> omega

theorem nextSize_mono (hsl : sl ≤ 8) (hC : ∀ c ∈ C, c.sizeLength ≤ 8) (hseg : 0 ≤ seg) (hst : seg ≤ start) (B : Int)
    (hB : start + B + 12 + ((C.map (fun c => c.body + 22)).sum : Nat) < 2 ^ 63) (a b : Int) (h0 : 0 ≤ a)
    (hab : a ≤ b) (hb : b ≤ B) : nextSize safe start seg crc sl C P a ≤ nextSize safe start seg crc sl C P b := by
  have := pointsSize_mono (retarget safe start seg sl C a) (retarget safe start seg sl C b) P (by
    intro c _
    have ho := offset_range safe C (c.cluster.getD 0) hC
    have ha := cuesFull_range sl a hsl
    have hb := cuesFull_range sl b hsl
    have hm := cuesFull_mono sl a b hab
    have : naturalSizeInt (retarget safe start seg sl C a c).pos ≤ naturalSizeInt (retarget safe start seg sl C b c).pos := by
      apply natural_mono
      simp only [retarget]
      generalize ((C.map (fun c => c.body + 22)).sum) = T at *
      have e1 := ofInt_toNat (start + cuesFull sl a + offset safe C (c.cluster.getD 0) - seg) (by omega) (by omega)
      have e2 := ofInt_toNat (start + cuesFull sl b + offset safe C (c.cluster.getD 0) - seg) (by omega) (by omega)
      omega
    have h2 := pointSize_pos c (retarget safe start seg sl C a c).pos (retarget safe start seg sl C b c).pos
    have h3 : pointSize (retarget safe start seg sl C a c) =
      pointSize { c with pos := (retarget safe start seg sl C a c).pos } := rfl
    have h4 : pointSize (retarget safe start seg sl C b c) =
      pointSize { c with pos := (retarget safe start seg sl C b c).pos } := rfl
    omega)
  unfold nextSize
  omega

end

end Verif.Mkclean
