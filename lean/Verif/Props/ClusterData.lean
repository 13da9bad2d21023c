import Verif.Mkclean.ClusterData
import Verif.Props.Life
/-!
Property C241: mkclean reads and releases the frames of the blocks of a Cluster.
-/
namespace Verif.Mkclean
open Verif Verif.Mkv

/-- The block is as linking with its track leaves it (`Mkv.first_link`), nothing of it is read, and its frames `frames`
are stored at `loc` in the file as its track asks for. -/
def Held (file : Bytes) (b : LBlk) (loc : Nat) (frames : List Bytes) : Prop :=
  ∃ enc pre post, file = pre ++ ((stored enc frames).flatten ++ post) ∧ loc = pre.length ∧ EncOk enc frames ∧
    (∀ f ∈ frames, f.length < 2 ^ 31) ∧ (∀ f ∈ stored enc frames, f.length < 2 ^ 31) ∧
    b.readTrack = some (.enc enc) ∧ (enc = .plain ∨ b.writeTrack.isSome) ∧
    b.valueSet = false ∧ b.sizes = linkedSizes enc frames ∧ b.sizesIn = [] ∧ b.data = []

/-- The Block of a BlockGroup the loops of mkclean find. -/
def groupBlock : List GroupElt → Option (LBlk × Nat)
  | [] => none
  | .block b loc :: _ => some (b, loc)
  | .other _ :: r => groupBlock r

/-- The block in a child of a Cluster. -/
def blockOf : ClusterElt → Option (LBlk × Nat)
  | .simple b loc => some (b, loc)
  | .group kids => groupBlock kids
  | .other _ => none

/-- All frames of the Cluster are there. -/
def AllHeld (file : Bytes) (cs : List ClusterElt) : Prop :=
  ∀ c ∈ cs, ∀ b loc, blockOf c = some (b, loc) → ∃ frames, Held file b loc frames

/-! ### Helpers -/

theorem readFrames_rest {file : Bytes} {loc : Nat} {b b' : LBlk} (h : readFrames file loc b = .ok b') :
    b'.readTrack = b.readTrack ∧ b'.writeTrack = b.writeTrack ∧ b'.timed = b.timed := by
  have hbind : ∀ {α β : Type} (x : Out α) (f : α → Out β) (y : β), x.bind f = .ok y → ∃ a, x = .ok a ∧ f a = .ok y := by
    intro α β x f y hx
    cases x with
    | ok a => exact ⟨a, rfl, hx⟩
    | err => cases hx
    | bad => cases hx
    | hang => cases hx
  unfold readFrames at h
  split at h
  · cases h; exact ⟨rfl, rfl, rfl⟩
  · split at h
    · cases h
    · cases h
    · cases h
    · split at h
      · cases h
      · obtain ⟨r, _, h⟩ := hbind _ _ _ h
        cases h; exact ⟨rfl, rfl, rfl⟩
    · obtain ⟨r, _, h⟩ := hbind _ _ _ h
      obtain ⟨r, _, h⟩ := hbind _ _ _ h
      cases h; exact ⟨rfl, rfl, rfl⟩
    · obtain ⟨r, _, h⟩ := hbind _ _ _ h
      cases h; exact ⟨rfl, rfl, rfl⟩

theorem release_rest {all : Bool} {b b' : LBlk} (h : release all b = .ok b') :
    b'.readTrack = b.readTrack ∧ b'.writeTrack = b.writeTrack ∧ b'.timed = b.timed := by
  unfold release at h
  split at h
  · cases h; exact ⟨rfl, rfl, rfl⟩
  · split at h
    · cases h; exact ⟨rfl, rfl, rfl⟩
    · split at h
      · cases h
      · cases h; exact ⟨rfl, rfl, rfl⟩

theorem release_timed (all : Bool) (b : LBlk) (h : all = true ∨ b.timed = true) : release all b = release true b := by
  unfold release
  rcases h with h | h
  · rw [h]
  · cases all <;> simp [h]

/-- Reading and releasing one block. -/
theorem block_round {file : Bytes} {b : LBlk} {loc : Nat} {frames : List Bytes} (h : Held file b loc frames) :
    ∃ b', readFrames file loc b = .ok b' ∧ b'.valueSet = true ∧ cutFrames b'.sizes b'.data = frames ∧ b'.timed = b.timed ∧
      ∀ all, (all = true ∨ b.timed = true) → release all b' = .ok b := by
  obtain ⟨enc, pre, post, hf, hl, he, h1, h2, g1, g2, g3, g4, g5, g6⟩ := h
  have life : Life enc (linkedSizes enc frames) frames b := ⟨g1, g2, .inl ⟨g3, g4, g5, g6⟩⟩
  obtain ⟨b', e', life', v'⟩ := readFrames_life enc frames pre post b he h1 h2 life
  rw [← hf, ← hl] at e'
  obtain ⟨r1, r2, r3⟩ := readFrames_rest e'
  refine ⟨b', e', v', ?_, r3, fun all ha => ?_⟩
  · rcases life'.2.2 with ⟨v, _⟩ | ⟨_, hs, hd, _⟩
    · rw [v] at v'; cases v'
    · rw [hs, hd, cutFrames_flatten]
  · rw [release_timed all b' (by rw [r3]; exact ha)]
    obtain ⟨b2, e2, life2, v2⟩ := release_life enc frames true b' life'
    obtain ⟨s1, s2, s3⟩ := release_rest e2
    rw [e2]
    rcases life2.2.2 with ⟨v3, hs, hi, hd⟩ | ⟨v, _⟩
    · cases b with
      | mk bs bi bd bv br bw bt =>
        cases b2 with
        | mk cs ci cd cv cr cw ct =>
          simp only at *
          subst g3 g5 g6 v3 hi hd
          rw [s1, r1, s2, r2, s3, r3, hs, g4]
    · rw [v2 rfl] at v; cases v

theorem group_round {file : Bytes} : ∀ (kids : List GroupElt),
    (∀ b loc, groupBlock kids = some (b, loc) → ∃ frames, Held file b loc frames) →
    ∃ k, readGroup file kids = .ok k ∧
      (∀ b loc frames, groupBlock kids = some (b, loc) → Held file b loc frames →
        ∃ b', groupBlock k = some (b', loc) ∧ b'.valueSet = true ∧ cutFrames b'.sizes b'.data = frames) ∧
      ∀ all, (∀ b loc, groupBlock kids = some (b, loc) → all = true ∨ b.timed = true) → releaseGroup all k = .ok kids
  | [], _ => ⟨[], rfl, fun _ _ _ h => (by cases h), fun _ _ => rfl⟩
  | .block b loc :: r, h => by
    obtain ⟨frames, hh⟩ := h b loc rfl
    obtain ⟨b', e', v', c', t', rel⟩ := block_round hh
    refine ⟨.block b' loc :: r, by rw [readGroup, e', bind_ok], ?_, fun all ha => ?_⟩
    · intro b1 loc1 frames1 hb hh1
      cases hb
      obtain ⟨b2, e2, v2, c2, _⟩ := block_round hh1
      rw [e'] at e2
      cases e2
      exact ⟨b', rfl, v2, c2⟩
    · rw [releaseGroup, rel all (ha b loc rfl), bind_ok]
  | .other t :: r, h => by
    obtain ⟨k, e, c, rel⟩ := group_round r h
    refine ⟨.other t :: k, by rw [readGroup, e, bind_ok], c, fun all ha => ?_⟩
    rw [releaseGroup, rel all ha, bind_ok]

theorem child_round {file : Bytes} (c : ClusterElt) (h : ∀ b loc, blockOf c = some (b, loc) → ∃ frames, Held file b loc frames) :
    ∃ c', readChild file c = .ok c' ∧
      (∀ b loc frames, blockOf c = some (b, loc) → Held file b loc frames →
        ∃ b', blockOf c' = some (b', loc) ∧ b'.valueSet = true ∧ cutFrames b'.sizes b'.data = frames) ∧
      ∀ all, (∀ b loc, blockOf c = some (b, loc) → all = true ∨ b.timed = true) → releaseChild all c' = .ok c := by
  cases c with
  | simple b loc =>
    obtain ⟨frames, hh⟩ := h b loc rfl
    obtain ⟨b', e', v', c', t', rel⟩ := block_round hh
    refine ⟨.simple b' loc, by rw [readChild, e', bind_ok], ?_, fun all ha => ?_⟩
    · intro b1 loc1 frames1 hb hh1
      cases hb
      obtain ⟨b2, e2, v2, c2, _⟩ := block_round hh1
      rw [e'] at e2
      cases e2
      exact ⟨b', rfl, v2, c2⟩
    · rw [releaseChild, rel all (ha b loc rfl), bind_ok]
  | group kids =>
    obtain ⟨k, e, c, rel⟩ := group_round kids h
    refine ⟨.group k, by rw [readChild, e, bind_ok], c, fun all ha => ?_⟩
    rw [releaseChild, rel all ha, bind_ok]
  | other t => exact ⟨.other t, rfl, fun _ _ _ h => (by cases h), fun _ _ => rfl⟩

/-! ### C241 -/

/-- C241, reading: when the frames of all blocks of a Cluster are in the file, reading them keeps all children, reports no
change, and every block found in them holds its frames. -/
theorem C241_read (file : Bytes) (cs : List ClusterElt) (h : AllHeld file cs) :
    ∃ cs', readClusterData file cs = .ok (cs', false) ∧ cs'.length = cs.length ∧
      ∀ (i : Nat) (c : ClusterElt) b loc frames, cs[i]? = some c → blockOf c = some (b, loc) → Held file b loc frames →
        ∃ c' b', cs'[i]? = some c' ∧ blockOf c' = some (b', loc) ∧ b'.valueSet = true ∧ cutFrames b'.sizes b'.data = frames := by
  induction cs with
  | nil => exact ⟨[], rfl, rfl, fun i c b loc frames hc => by cases hc⟩
  | cons c cs ih =>
    obtain ⟨cs', e, hl, hc⟩ := ih (fun d hd => h d (List.mem_cons_of_mem _ hd))
    obtain ⟨c', e1, h1, _⟩ := child_round c (h c List.mem_cons_self)
    refine ⟨c' :: cs', ?_, by rw [List.length_cons, List.length_cons, hl], ?_⟩
    · rw [readClusterData, e1]
      simp only
      rw [e, bind_ok]
    · intro i d b loc frames hd hb hh
      cases i with
      | zero =>
        cases hd
        obtain ⟨b', g1, g2, g3⟩ := h1 b loc frames hb hh
        exact ⟨c', b', rfl, g1, g2, g3⟩
      | succ i => exact hc i d b loc frames hd hb hh

/-- C241, releasing: reading the frames of a Cluster and releasing them (all of them, or those of blocks with a time, when
all have one) gives back the Cluster exactly as it was, so that it can be read again. -/
theorem C241_release (file : Bytes) (cs : List ClusterElt) (all : Bool) (h : AllHeld file cs)
    (ht : all = true ∨ ∀ c ∈ cs, ∀ b loc, blockOf c = some (b, loc) → b.timed = true) :
    ∃ cs', readClusterData file cs = .ok (cs', false) ∧ unreadClusterData all cs' = .ok cs := by
  induction cs with
  | nil => exact ⟨[], rfl, rfl⟩
  | cons c cs ih =>
    obtain ⟨cs', e, hr⟩ := ih (fun d hd => h d (List.mem_cons_of_mem _ hd))
      (ht.imp_right fun hh d hd => hh d (List.mem_cons_of_mem _ hd))
    obtain ⟨c', e1, _, h1⟩ := child_round c (h c List.mem_cons_self)
    refine ⟨c' :: cs', ?_, ?_⟩
    · rw [readClusterData, e1]
      simp only
      rw [e, bind_ok]
    · rw [unreadClusterData, h1 all (fun b loc hb => ht.imp_right fun hh => hh c List.mem_cons_self b loc hb), bind_ok, hr, bind_ok]

/-- C241, blocks that can not be read: a SimpleBlock whose frames can not be read is taken out of the Cluster wherever it
is, the rest is read as if it had not been there, and the change is reported. -/
theorem C241_unreadable (file : Bytes) (before after cs' : List ClusterElt) (b : LBlk) (loc : Nat) (ch : Bool)
    (hb : readFrames file loc b = .err) (h : readClusterData file (before ++ after) = .ok (cs', ch)) :
    readClusterData file (before ++ .simple b loc :: after) = .ok (cs', true) := by
  induction before generalizing cs' ch with
  | nil =>
    rw [List.nil_append] at h ⊢
    rw [readClusterData, readChild, hb]
    show (readClusterData file after).bind _ = _
    rw [h, bind_ok]
  | cons c before ih =>
    rw [List.cons_append, readClusterData] at h ⊢
    cases hc : readChild file c with
    | ok c' =>
      rw [hc] at h
      simp only at h ⊢
      cases hr : readClusterData file (before ++ after) with
      | ok x =>
        rw [hr, bind_ok] at h
        cases h
        rw [ih x.1 x.2 hr, bind_ok]
      | err => rw [hr] at h; cases h
      | bad => rw [hr] at h; cases h
      | hang => rw [hr] at h; cases h
    | err =>
      rw [hc] at h
      simp only at h ⊢
      cases hr : readClusterData file (before ++ after) with
      | ok x =>
        rw [hr, bind_ok] at h
        cases h
        rw [ih x.1 x.2 hr, bind_ok]
      | err => rw [hr] at h; cases h
      | bad => rw [hr] at h; cases h
      | hang => rw [hr] at h; cases h
    | bad => rw [hc] at h; cases h
    | hang => rw [hc] at h; cases h

/-- The same for a BlockGroup whose Block can not be read: all of the group goes. -/
theorem C241_unreadable_group (file : Bytes) (before after cs' : List ClusterElt) (kids : List GroupElt) (b : LBlk) (loc : Nat)
    (ch : Bool) (hk : groupBlock kids = some (b, loc)) (hb : readFrames file loc b = .err)
    (h : readClusterData file (before ++ after) = .ok (cs', ch)) :
    readClusterData file (before ++ .group kids :: after) = .ok (cs', true) := by
  have hg : readGroup file kids = .err := by
    induction kids with
    | nil => cases hk
    | cons k kids ih =>
      cases k with
      | block b1 loc1 => cases hk; rw [readGroup, hb]; rfl
      | other t => rw [readGroup, ih hk]; rfl
  induction before generalizing cs' ch with
  | nil =>
    rw [List.nil_append] at h ⊢
    rw [readClusterData, readChild, hg]
    show (readClusterData file after).bind _ = _
    rw [h, bind_ok]
  | cons c before ih =>
    rw [List.cons_append, readClusterData] at h ⊢
    cases hc : readChild file c with
    | ok c' =>
      rw [hc] at h
      simp only at h ⊢
      cases hr : readClusterData file (before ++ after) with
      | ok x =>
        rw [hr, bind_ok] at h
        cases h
        rw [ih x.1 x.2 hr, bind_ok]
      | err => rw [hr] at h; cases h
      | bad => rw [hr] at h; cases h
      | hang => rw [hr] at h; cases h
    | err =>
      rw [hc] at h
      simp only at h ⊢
      cases hr : readClusterData file (before ++ after) with
      | ok x =>
        rw [hr, bind_ok] at h
        cases h
        rw [ih x.1 x.2 hr, bind_ok]
      | err => rw [hr] at h; cases h
      | bad => rw [hr] at h; cases h
      | hang => rw [hr] at h; cases h
    | bad => rw [hc] at h; cases h
    | hang => rw [hc] at h; cases h

/-- A plain block with the two bytes at position 1. -/
def twoBytes : LBlk := ⟨[2], [], [], false, some (.enc .plain), none, false⟩

theorem twoBytes_held : Held [9, 7, 8, 9] twoBytes 1 [[7, 8]] :=
  ⟨.plain, [9], [9], rfl, rfl, trivial, by simp, by simp [stored], rfl, .inl rfl, rfl, rfl, rfl, rfl⟩

example : AllHeld [9, 7, 8, 9] [.other 0, .simple twoBytes 1, .group [.other 1, .block twoBytes 1]] := by
  intro c hc b loc hb
  simp only [List.mem_cons, List.not_mem_nil, or_false] at hc
  rcases hc with h | h | h <;> rw [h] at hb <;> cases hb <;> exact ⟨_, twoBytes_held⟩

/-- Not all Blocks are read: of two Blocks in one BlockGroup only the first is. -/
theorem C241_second_block_counterexample :
    readClusterData [9, 7, 8, 9] [.group [.block twoBytes 1, .block twoBytes 1]] =
      .ok ([.group [.block { twoBytes with data := [7, 8], valueSet := true } 1, .block twoBytes 1]], false) := rfl

/-- Without the option, the frames of blocks without a time are not released. -/
theorem C241_untimed_counterexample :
    readClusterData [9, 7, 8, 9] [.simple twoBytes 1] = .ok ([.simple { twoBytes with data := [7, 8], valueSet := true } 1], false) ∧
    unreadClusterData false [.simple { twoBytes with data := [7, 8], valueSet := true } 1] =
      .ok [.simple { twoBytes with data := [7, 8], valueSet := true } 1] := ⟨rfl, rfl⟩

/-- A block whose size runs over the end of the file is deleted. -/
example : readClusterData [9, 7] [.other 0, .simple twoBytes 1, .other 5] = .ok ([.other 0, .other 5], true) := rfl

end Verif.Mkclean
