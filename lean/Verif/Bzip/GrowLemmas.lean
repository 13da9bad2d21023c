import Verif.Bzip.TripLemmas
/-!
More input than was needed changes nothing.
-/
namespace Verif.Bzip
open Verif Verif.Mkv

/-- With more input behind. -/
def Rd.more (r : Rd) (m : List Nat) : Rd := ⟨r.buff, r.live, r.inp ++ m⟩

theorem Rd.more_left (r : Rd) (m : List Nat) : (r.more m).left = r.left + 8 * m.length := by
  simp only [Rd.left, Rd.more, List.length_append]; omega

/-- What `p` gives, `q` gives with more input, which is left. -/
def Grow {α : Type} (m : List Nat) (p q : P α) : Prop := ∀ r a r', p r = .ok (a, r') → q (r.more m) = .ok (a, r'.more m)

variable {α β : Type} {m : List Nat}

theorem Grow.pure (a : α) : Grow m (pure a) (pure a) := by
  intro r b r' h
  obtain ⟨rfl, rfl⟩ := Prod.mk.inj (Out.ok.inj h)
  rfl

theorem Grow.fail (q : P α) : Grow m fail q := fun _ _ _ h => by cases h

theorem Grow.oob (q : P α) : Grow m oob q := fun _ _ _ h => by cases h

theorem Grow.forever (q : P α) : Grow m forever q := fun _ _ _ h => by cases h

theorem Grow.lift (x : Out α) : Grow m (lift x) (lift x) := by
  intro r a r' h
  cases x with
  | ok b =>
    obtain ⟨rfl, rfl⟩ := Prod.mk.inj (Out.ok.inj h)
    rfl
  | err => cases h
  | bad => cases h
  | hang => cases h

theorem Grow.bind {p q : P α} {f g : α → P β} (h1 : Grow m p q) (h2 : ∀ a, Grow m (f a) (g a)) : Grow m (p >>= f) (q >>= g) := by
  intro r b r' h
  have h : ((p r).bind fun y => f y.1 y.2) = .ok (b, r') := h
  show ((q (r.more m)).bind fun y => g y.1 y.2) = _
  cases e : p r with
  | ok y =>
    rw [e] at h
    rw [h1 r y.1 y.2 e]
    exact h2 y.1 y.2 b r' h
  | err => rw [e] at h; cases h
  | bad => rw [e] at h; cases h
  | hang => rw [e] at h; cases h

theorem Grow.ite {c : Prop} [Decidable c] {p p' q q' : P α} (h1 : c → Grow m p q) (h2 : ¬c → Grow m p' q') : Grow m (if c then p else p') (if c then q else q') := by
  by_cases h : c
  · rw [if_pos h, if_pos h]; exact h1 h
  · rw [if_neg h, if_neg h]; exact h2 h

theorem Grow.withFuel {p q : Nat → P α} (h : ∀ f f', f ≤ f' → Grow m (p f) (q f')) : Grow m (withFuel p) (withFuel q) := by
  intro r a r' hp
  exact h (r.left + 1) ((r.more m).left + 1) (by rw [Rd.more_left]; omega) r a r' hp

theorem getLoop_more (n : Nat) (inp : List Nat) : ∀ (buff live : Nat) (a : Nat) (r' : Rd), getLoop n inp buff live = .ok (a, r') →
    getLoop n (inp ++ m) buff live = .ok (a, r'.more m) := by
  induction inp with
  | nil =>
    intro buff live a r' h
    rw [getLoop] at h
    by_cases hn : n ≤ live
    · rw [if_pos hn] at h
      obtain ⟨rfl, rfl⟩ := Prod.mk.inj (Out.ok.inj h)
      rw [getLoop.eq_def]
      dsimp only
      rw [if_pos hn]
      rfl
    · rw [if_neg hn] at h; cases h
  | cons b inp ih =>
    intro buff live a r' h
    rw [getLoop] at h
    by_cases hn : n ≤ live
    · rw [if_pos hn] at h
      obtain ⟨rfl, rfl⟩ := Prod.mk.inj (Out.ok.inj h)
      rw [getLoop.eq_def]
      dsimp only
      rw [if_pos hn]
      rfl
    · rw [if_neg hn] at h
      rw [List.cons_append, getLoop, if_neg hn]
      exact ih _ _ a r' h

theorem Grow.getBits (n : Nat) : Grow m (getBits n) (getBits n) := fun r a r' h => getLoop_more n r.inp r.buff r.live a r' h

theorem Grow.times {p q : P α} (h : Grow m p q) (n : Nat) : Grow m (times p n) (times q n) := by
  induction n with
  | zero => exact Grow.pure _
  | succ n ih => exact Grow.bind h fun _ => Grow.bind ih fun _ => Grow.pure _

theorem Grow.expect (b : Nat) : Grow m (expect b) (expect b) := Grow.bind (Grow.getBits 8) fun _ => Grow.ite (fun _ => Grow.pure _) fun _ => Grow.fail _

theorem Grow.getWord (n : Nat) : ∀ v, Grow m (getWord n v) (getWord n v) := by
  induction n with
  | zero => intro v; exact Grow.pure _
  | succ n ih => intro v; exact Grow.bind (Grow.getBits 8) fun _ => ih _

theorem Grow.lenLoop (f : Nat) : ∀ f' c, f ≤ f' → Grow m (lenLoop f c) (lenLoop f' c) := by
  induction f with
  | zero => intro f' c _; exact Grow.forever _
  | succ f ih =>
    intro f' c h
    obtain ⟨g, rfl⟩ : ∃ g, f' = g + 1 := ⟨f' - 1, by omega⟩
    rw [Bzip.lenLoop, Bzip.lenLoop]
    exact Grow.ite (fun _ => Grow.fail _) fun _ => Grow.bind (Grow.getBits 1) fun _ => Grow.ite (fun _ => Grow.pure _) fun _ =>
      Grow.bind (Grow.getBits 1) fun _ => Grow.ite (fun _ => ih g _ (by omega)) fun _ => ih g _ (by omega)

theorem Grow.lenTable (n : Nat) : ∀ c, Grow m (lenTable n c) (lenTable n c) := by
  induction n with
  | zero => intro c; exact Grow.pure _
  | succ n ih => intro c; exact Grow.bind (Grow.withFuel fun f f' h => Grow.lenLoop f f' c h) fun _ => Grow.bind (ih _) fun _ => Grow.pure _

theorem Grow.getLens (n : Nat) : Grow m (getLens n) (getLens n) := Grow.bind (Grow.getBits 5) fun _ => Grow.lenTable _ _

theorem Grow.unary (g f : Nat) : ∀ j, Grow m (unary g f j) (unary g f j) := by
  induction f with
  | zero => intro j; exact Grow.forever _
  | succ f ih =>
    intro j
    rw [Bzip.unary]
    exact Grow.bind (Grow.getBits 1) fun _ => Grow.ite (fun _ => Grow.pure _) fun _ => Grow.ite (fun _ => Grow.fail _) fun _ => ih _

theorem Grow.getSelectors : Grow m getSelectors getSelectors :=
  Grow.bind (Grow.getBits 3) fun _ => Grow.ite (fun _ => Grow.fail _) fun _ => Grow.bind (Grow.getBits 15) fun _ => Grow.ite (fun _ => Grow.fail _) fun _ =>
    Grow.bind (Grow.times (Grow.unary _ _ _) _) fun _ => Grow.bind (Grow.lift _) fun _ => Grow.pure _

theorem Grow.pick (t : Tab) (zn zvec : Nat) : Grow m (pick t zn zvec) (pick t zn zvec) := by
  rw [Bzip.pick]
  split
  · exact Grow.oob _
  · refine Grow.ite (fun _ => Grow.fail _) fun _ => ?_
    split
    · exact Grow.oob _
    · exact Grow.pure _

theorem Grow.zLoop (t : Tab) (f : Nat) : ∀ zn zvec, Grow m (zLoop t f zn zvec) (zLoop t f zn zvec) := by
  induction f with
  | zero => intro zn zvec; exact Grow.forever _
  | succ f ih =>
    intro zn zvec
    rw [Bzip.zLoop]
    refine Grow.ite (fun _ => Grow.fail _) fun _ => ?_
    split
    · exact Grow.oob _
    · exact Grow.ite (fun _ => Grow.pick t zn zvec) fun _ => Grow.bind (Grow.getBits 1) fun _ => ih _ _

theorem Grow.nextGroup (tabs : List Tab) (sel : List Nat) (g : Grp) : Grow m (nextGroup tabs sel g) (nextGroup tabs sel g) := by
  rw [Bzip.nextGroup]
  refine Grow.ite (fun _ => ?_) fun _ => Grow.pure _
  split
  · exact Grow.fail _
  · split
    · exact Grow.oob _
    · exact Grow.pure _

theorem Grow.getSym (tabs : List Tab) (sel : List Nat) (g : Grp) : Grow m (getSym tabs sel g) (getSym tabs sel g) :=
  Grow.bind (Grow.nextGroup tabs sel g) fun _ => Grow.bind (Grow.getBits _) fun _ => Grow.bind (Grow.zLoop _ _ _ _) fun _ => Grow.pure _

theorem Grow.getMapRows (us : List Nat) : Grow m (getMapRows us) (getMapRows us) := by
  induction us with
  | nil => exact Grow.pure _
  | cons u us ih => exact Grow.bind (Grow.ite (fun _ => Grow.times (Grow.getBits 1) 16) fun _ => Grow.pure _) fun _ => Grow.bind ih fun _ => Grow.pure _

theorem Grow.getMap : Grow m getMap getMap := Grow.bind (Grow.times (Grow.getBits 1) 16) fun _ => Grow.bind (Grow.getMapRows _) fun _ => Grow.pure _

theorem Grow.runLoop {sym : Grp → P (Nat × Grp)} (hs : ∀ g, Grow m (sym g) (sym g)) (f : Nat) : ∀ f' es n s g, f ≤ f' →
    Grow m (runLoop sym f es n s g) (runLoop sym f' es n s g) := by
  induction f with
  | zero => intro f' es n s g _; exact Grow.forever _
  | succ f ih =>
    intro f' es n s g h
    obtain ⟨f', rfl⟩ : ∃ k, f' = k + 1 := ⟨f' - 1, by omega⟩
    rw [Bzip.runLoop, Bzip.runLoop]
    exact Grow.ite (fun _ => Grow.fail _) fun _ => Grow.bind (hs g) fun _ => Grow.ite (fun _ => ih f' _ _ _ _ (by omega)) fun _ => Grow.pure _

theorem Grow.symLoop {sym : Grp → P (Nat × Grp)} (hs : ∀ g, Grow m (sym g) (sym g)) (seq : List Nat) (nmax f : Nat) : ∀ f' s g a, f ≤ f' →
    Grow m (symLoop sym seq nmax f s g a) (symLoop sym seq nmax f' s g a) := by
  induction f with
  | zero => intro f' s g a _; exact Grow.forever _
  | succ f ih =>
    intro f' s g a h
    obtain ⟨f', rfl⟩ : ∃ k, f' = k + 1 := ⟨f' - 1, by omega⟩
    rw [Bzip.symLoop, Bzip.symLoop]
    refine Grow.ite (fun _ => Grow.pure _) fun _ => Grow.ite (fun _ => ?_) fun _ => Grow.ite (fun _ => Grow.fail _) fun _ => ?_
    · refine Grow.bind (Grow.runLoop hs _ _ _ _ _ _ (by omega)) fun x => ?_
      refine Grow.ite (fun _ => ?_) fun _ => Grow.oob _
      split
      · exact Grow.oob _
      · exact Grow.bind (Grow.lift _) fun _ => ih f' _ _ _ (by omega)
    · refine Grow.bind (Grow.lift _) fun x => ?_
      simp only
      split
      · exact Grow.oob _
      · exact Grow.bind (hs g) fun _ => ih f' _ _ _ (by omega)

theorem Grow.blockBody (size stored : Nat) : Grow m (blockBody size stored) (blockBody size stored) := by
  unfold Bzip.blockBody
  refine Grow.bind (Grow.getBits 1) fun rand => Grow.bind (Grow.getWord 3 0) fun p => Grow.ite (fun _ => Grow.fail _) fun _ => ?_
  refine Grow.bind Grow.getMap fun seq => Grow.ite (fun _ => Grow.fail _) fun _ => Grow.bind Grow.getSelectors fun x => ?_
  refine Grow.bind (Grow.times (Grow.getLens _) _) fun lens => Grow.bind (Grow.getSym _ _ _) fun y => ?_
  refine Grow.bind (Grow.withFuel fun f f' h => Grow.symLoop (fun g => Grow.getSym _ _ g) _ _ f f' _ _ _ h) fun a => ?_
  refine Grow.ite (fun _ => Grow.fail _) fun _ => Grow.ite (fun _ => Grow.fail _) fun _ => ?_
  refine Grow.bind (Grow.lift _) fun ll => Grow.bind (Grow.lift _) fun z => ?_
  obtain ⟨k0, q⟩ := z
  cases k0 with
  | none => exact Grow.oob _
  | some k0 => exact Grow.pure _

theorem Grow.getBlock (size : Nat) : Grow m (getBlock size) (getBlock size) :=
  Grow.bind (Grow.bind (Grow.expect _) fun _ => Grow.bind (Grow.expect _) fun _ => Grow.bind (Grow.expect _) fun _ => Grow.bind (Grow.expect _) fun _ =>
    Grow.bind (Grow.expect _) fun _ => Grow.getWord 4 0) fun _ => Grow.blockBody size _

theorem Grow.getEnd : Grow m getEnd getEnd :=
  Grow.bind (Grow.expect _) fun _ => Grow.bind (Grow.expect _) fun _ => Grow.bind (Grow.expect _) fun _ => Grow.bind (Grow.expect _) fun _ =>
    Grow.bind (Grow.expect _) fun _ => Grow.getWord 4 0

theorem Grow.getHead : Grow m getHead getHead :=
  Grow.bind (Grow.expect _) fun _ => Grow.bind (Grow.expect _) fun _ => Grow.bind (Grow.expect _) fun _ => Grow.bind (Grow.getBits 8) fun _ =>
    Grow.ite (fun _ => Grow.fail _) fun _ => Grow.pure _

theorem Grow.parse (size : Nat) (crc : BitVec 32) : Grow m (decompress.parse size crc) (decompress.parse size crc) := by
  unfold decompress.parse
  exact Grow.bind (Grow.getBits 8) fun _ => Grow.ite (fun _ => Grow.bind Grow.getEnd fun _ => Grow.ite (fun _ => Grow.pure _) fun _ => Grow.fail _) fun _ =>
    Grow.ite (fun _ => Grow.bind (Grow.getBlock size) fun _ => Grow.pure _) fun _ => Grow.fail _

theorem Grow.decompress (s : DState) : Grow m (decompress s) (decompress s) := by
  cases s with
  | start => exact Grow.bind Grow.getHead fun _ => Grow.parse _ _
  | head size crc => exact Grow.parse size crc
  | output _ _ _ _ _ => exact Grow.forever _
  | idle => exact Grow.fail _

theorem Grow.bzDecompress (f : Nat) : ∀ f' avail s, f ≤ f' → Grow m (bzDecompress f avail s) (bzDecompress f' avail s) := by
  induction f with
  | zero => intro f' avail s _; exact Grow.forever _
  | succ f ih =>
    intro f' avail s h
    obtain ⟨f', rfl⟩ : ∃ k, f' = k + 1 := ⟨f' - 1, by omega⟩
    have hother : Grow m (Bzip.decompress s >>= fun r => match r with
        | none => (Pure.pure ([], .idle) : P (List Nat × DState))
        | some s => Bzip.bzDecompress f avail s) (Bzip.decompress s >>= fun r => match r with
        | none => (Pure.pure ([], .idle) : P (List Nat × DState))
        | some s => Bzip.bzDecompress f' avail s) := by
      refine Grow.bind (Grow.decompress s) fun r => ?_
      cases r with
      | none => exact Grow.pure _
      | some s => exact ih f' avail s (by omega)
    cases s with
    | output size crc stored b p =>
      rw [Bzip.bzDecompress, Bzip.bzDecompress]
      refine Grow.bind (Grow.lift _) fun x => ?_
      obtain ⟨out, q⟩ := x
      cases q with
      | none => exact Grow.fail _
      | some p =>
        exact Grow.ite (fun _ => Grow.ite (fun _ => Grow.bind (ih f' _ _ (by omega)) fun _ => Grow.pure _) fun _ => Grow.fail _) fun _ => Grow.pure _
    | start => exact hother
    | head _ _ => exact hother
    | idle => exact hother

theorem Grow.bzLoop (f : Nat) : ∀ f' s, f ≤ f' → Grow m (bzLoop f s) (bzLoop f' s) := by
  induction f with
  | zero => intro f' s _; exact Grow.forever _
  | succ f ih =>
    intro f' s h
    obtain ⟨f', rfl⟩ : ∃ k, f' = k + 1 := ⟨f' - 1, by omega⟩
    intro r a r' hr
    rw [Bzip.bzLoop] at hr ⊢
    beta_reduce at hr ⊢
    have hw : Grow m (Bzip.withFuel fun f => Bzip.bzDecompress (f + 1) 1024 s) (Bzip.withFuel fun f => Bzip.bzDecompress (f + 1) 1024 s) :=
      Grow.withFuel fun f f' h => Grow.bzDecompress (f + 1) (f' + 1) 1024 s (by omega)
    cases e : Bzip.withFuel (fun f => Bzip.bzDecompress (f + 1) 1024 s) r with
    | ok x =>
      rw [e] at hr
      rw [hw r x.1 x.2 e]
      obtain ⟨⟨out, s'⟩, r1⟩ := x
      simp only [Out.bind] at hr ⊢
      have key : ∀ s', (if r1.inp ≠ [] ∧ out.length = 1024 then (Bzip.bzLoop f s' r1).bind fun y => .ok (out ++ y.1, y.2) else .err) = .ok (a, r') →
          (if (r1.more m).inp ≠ [] ∧ out.length = 1024 then (Bzip.bzLoop f' s' (r1.more m)).bind fun y => .ok (out ++ y.1, y.2) else .err) = .ok (a, r'.more m) := by
        intro s' hr
        by_cases hc : r1.inp ≠ [] ∧ out.length = 1024
        · rw [if_pos hc] at hr
          rw [if_pos ⟨by simp only [Rd.more]; intro h; exact hc.1 (List.append_eq_nil_iff.mp h).1, hc.2⟩]
          cases e2 : Bzip.bzLoop f s' r1 with
          | ok y =>
            rw [e2] at hr
            rw [ih f' s' (by omega) r1 y.1 y.2 e2]
            obtain ⟨rfl, rfl⟩ := Prod.mk.inj (Out.ok.inj hr)
            rfl
          | err => rw [e2] at hr; cases hr
          | bad => rw [e2] at hr; cases hr
          | hang => rw [e2] at hr; cases hr
        · rw [if_neg hc] at hr; cases hr
      cases s' with
      | idle =>
        obtain ⟨rfl, rfl⟩ := Prod.mk.inj (Out.ok.inj hr)
        rfl
      | start => exact key _ hr
      | head _ _ => exact key _ hr
      | output _ _ _ _ _ => exact key _ hr
    | err => rw [e] at hr; cases hr
    | bad => rw [e] at hr; cases hr
    | hang => rw [e] at hr; cases hr

theorem bzLoop_more (inp more out : List Nat) (F F' : Nat) (hF : F ≤ F') (h : ((bzLoop F .start ⟨0, 0, inp⟩).bind fun x => .ok x.1) = .ok out) :
    ((bzLoop F' .start ⟨0, 0, inp ++ more⟩).bind fun x => .ok x.1) = .ok out := by
  cases e : bzLoop F .start ⟨0, 0, inp⟩ with
  | ok x =>
    rw [e] at h
    have h : x.1 = out := Out.ok.inj h
    rw [show (⟨0, 0, inp ++ more⟩ : Rd) = Rd.more ⟨0, 0, inp⟩ more from rfl, Grow.bzLoop F F' .start hF _ x.1 x.2 e, ← h]
    rfl
  | err => rw [e] at h; cases h
  | bad => rw [e] at h; cases h
  | hang => rw [e] at h; cases h

theorem bunzip_more (inp more out : List Nat) (h : bunzip inp = .ok out) : bunzip (inp ++ more) = .ok out :=
  bzLoop_more inp more out _ _ (Nat.mul_le_mul_right _ (by rw [List.length_append]; omega)) h

theorem bzLoop_cut (inp rest : List Nat) (out : List Nat) (F F' : Nat) (hF : F ≤ F') (h : ((bzLoop F .start ⟨0, 0, inp⟩).bind fun x => .ok x.1) = .ok out)
    (a : List Nat) (r' : Rd) (e' : bzLoop F' .start ⟨0, 0, inp ++ rest⟩ = .ok (a, r')) : 8 * rest.length ≤ r'.left := by
  cases e : bzLoop F .start ⟨0, 0, inp⟩ with
  | ok x =>
    rw [show (⟨0, 0, inp ++ rest⟩ : Rd) = Rd.more ⟨0, 0, inp⟩ rest from rfl, Grow.bzLoop F F' .start hF _ x.1 x.2 e] at e'
    obtain ⟨_, rfl⟩ := Prod.mk.inj (Out.ok.inj e')
    rw [Rd.more_left]
    omega
  | err => rw [e] at h; cases h
  | bad => rw [e] at h; cases h
  | hang => rw [e] at h; cases h

theorem bunzip_cut (size : Nat) (h1 : 1 ≤ size) (hsize : size ≤ 9) (bs : List Spec.Block) (hbs : ∀ b ∈ bs, b.Ok size) (n : Nat) (hn : n < (Spec.stream size bs).length)
    (out : List Nat) : bunzip ((Spec.stream size bs).take n) ≠ .ok out := by
  intro h
  obtain ⟨r', e', hl⟩ := bzLoop_stream size h1 hsize bs hbs [] (by simp)
  rw [List.append_nil] at e'
  have := bzLoop_cut ((Spec.stream size bs).take n) ((Spec.stream size bs).drop n) out _ ((8 * (Spec.stream size bs).length + 1) * 300000000)
    (Nat.mul_le_mul_right _ (by rw [List.length_take]; omega)) h _ r' (by rw [List.take_append_drop]; exact e')
  rw [List.length_drop] at this
  rw [List.length_nil] at hl
  omega

end Verif.Bzip
