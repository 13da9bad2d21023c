import Verif.Vorbis.BackendLemmas

/-! Lemmas: codebooks, floors, residues, mappings are read as written. -/

namespace Verif.Vorbis

open Verif

theorem In.nat {v : Int} {lo hi : Int} (h : In v lo hi) (hlo : 0 ≤ lo) : v = ((v.toNat : Nat) : Int) := by
  have := h.1
  omega

theorem In.mono {v lo hi lo' hi' : Int} (h : In v lo hi) (h1 : lo' ≤ lo) (h2 : hi ≤ hi') : In v lo' hi' := ⟨by have := h.1; omega, by have := h.2; omega⟩

theorem In.sub {v lo hi : Int} (h : In v lo hi) (d : Int) : In (v - d) (lo - d) (hi - d) := ⟨by have := h.1; omega, by have := h.2; omega⟩

/-- A field of some bits. -/
theorem Reads.field {n : Nat} {v w : Int} (h : In v 0 (2 ^ n)) (e : w = v) : Reads (Vorbis.rd n) (enc n v) w := e.symm ▸ Reads.rd h

theorem Reads.taggedLength {l : Int} (h : In l 0 33) :
    Reads taggedLength (if l = 0 then enc 1 0 else enc 1 1 ++ enc 5 (l - 1)) l := by
  unfold Vorbis.taggedLength
  by_cases hl : l = 0
  · rw [if_pos hl, hl]
    exact Reads.bindPure (Reads.rd (v := 0) (by decide)) (Reads.pure _)
  · rw [if_neg hl]
    refine Reads.bind (Reads.rd (v := 1) (by decide)) ?_
    rw [if_pos (by decide)]
    have h1 := h.1
    have h2 := h.2
    refine Reads.bindPure (Reads.rd (v := l - 1) ⟨by omega, by omega⟩) (Reads.bindNil (Reads.need (by simp; omega)) ?_)
    rw [show l - 1 + 1 = l by omega]
    exact Reads.pure _

theorem Reads.plainLength {l : Int} (h : In l 1 33) : Reads plainLength (enc 5 (l - 1)) l := by
  have h1 := h.1
  have h2 := h.2
  refine Reads.bindPure (Reads.rd (v := l - 1) ⟨by omega, by omega⟩) (Reads.bindNil (Reads.need (by simp; omega)) ?_)
  rw [show l - 1 + 1 = l by omega]
  exact Reads.pure _

theorem Reads.orderedLengths (counts : List Nat) : ∀ (fuel left : Nat) (l : Int), counts.length < fuel → Fills left counts →
    Reads (orderedLengths fuel left l) (runBits left counts) (spread l counts) := by
  induction counts with
  | nil =>
    intro fuel left l hf hl
    obtain ⟨f, rfl⟩ : ∃ f, fuel = f + 1 := ⟨fuel - 1, by simp at hf; omega⟩
    rw [Vorbis.orderedLengths, if_pos (show left = 0 from hl)]
    exact Reads.pure _
  | cons k ks ih =>
    intro fuel left l hf hl
    obtain ⟨f, rfl⟩ : ∃ f, fuel = f + 1 := ⟨fuel - 1, by simp at hf; omega⟩
    obtain ⟨h1, h2, h3⟩ := hl
    rw [Vorbis.orderedLengths, if_neg h1, runBits, spread]
    have hlt := ilog_lt left
    have hk : In (k : Int) 0 (2 ^ ilog left) := ⟨by omega, by
      have : ((k : Nat) : Int) < ((2 ^ ilog left : Nat) : Int) := by omega
      simpa using this⟩
    refine Reads.bind (Reads.rd hk) (Reads.bindNil (Reads.need (by simp)) ?_)
    rw [show min (k : Int).toNat left = k by omega]
    exact Reads.bindPure (ih f (left - k) (l + 1) (by simp at hf; omega) h3) (Reads.pure _)

theorem runBits_length (counts : List Nat) : ∀ left, Fills left counts → counts.length ≤ (runBits left counts).length := by
  induction counts with
  | nil => intro left _; simp
  | cons k ks ih =>
    intro left h
    have := ih _ h.2.2
    have := ilog_pos left h.1
    rw [runBits, List.length_append, enc_length, List.length_cons]
    omega

theorem Reads.ordered (counts : List Nat) (left : Nat) (l : Int) (h : Fills left counts) :
    Reads (ordered left l) (runBits left counts) (spread l counts) := by
  intro rest
  unfold Vorbis.ordered
  refine Reads.orderedLengths counts _ left l ?_ h rest
  have := runBits_length counts left h
  simp only [Option.getD_some, List.length_append]
  omega

/-- The rest of the bits of lengths, behind the bit for their order. -/
theorem Reads.lengths (sh : Shape) (ls : List Int) (h : sh.Fits ls) : ∃ o b, lengthBits sh ls = enc 1 o ++ b ∧ In o 0 2 ∧
    Reads (unpackLengths o ls.length) b ls := by
  cases sh with
  | plain =>
    refine ⟨0, _, rfl, by decide, ?_⟩
    unfold unpackLengths
    rw [if_pos rfl]
    refine Reads.bind (Reads.rd (v := 0) (by decide)) ?_
    rw [if_neg (by decide)]
    exact Reads.many (fun l => enc 5 (l - 1)) ls fun l hl => Reads.plainLength (h l hl)
  | tagged =>
    refine ⟨0, _, rfl, by decide, ?_⟩
    unfold unpackLengths
    rw [if_pos rfl]
    refine Reads.bind (Reads.rd (v := 1) (by decide)) ?_
    rw [if_pos (by decide)]
    exact Reads.many (fun l => if l = 0 then enc 1 0 else enc 1 1 ++ enc 5 (l - 1)) ls fun l hl => Reads.taggedLength (h l hl)
  | runs first counts =>
    refine ⟨1, _, rfl, by decide, ?_⟩
    obtain ⟨h1, h2, h3⟩ := h
    unfold unpackLengths
    rw [if_neg (by decide)]
    have a1 := h1.1
    have a2 := h1.2
    refine Reads.bind (Reads.rd (v := first - 1) ⟨by omega, by omega⟩) ?_
    rw [show first - 1 + 1 = first by omega]
    conv => arg 3; rw [h3]
    exact Reads.ordered counts ls.length first h2

/-- Codebooks whose number of values the code can compute. -/
def Book.Small (b : Book) : Prop :=
  (b.maptype = 1 → 1 ≤ b.dim ∧
    (b.entries.toNat / 2 ^ ((ilog b.entries.toNat - 1) * (b.dim.toNat - 1) / b.dim.toNat) + 1) ^ b.dim.toNat < 2 ^ 63) ∧
  (b.maptype = 2 → b.entries.toNat * b.dim.toNat < 2 ^ 31)

theorem Reads.valueCount (maptype dim entries : Int) (n : Nat) (hm : maptype = 1 ∨ maptype = 2)
    (h1 : maptype = 1 → 1 ≤ dim ∧ (quantStart dim.toNat entries.toNat + 1) ^ dim.toNat < 2 ^ 63)
    (h2 : maptype = 2 → entries.toNat * dim.toNat < 2 ^ 31) (hc : Quant.Count maptype dim entries n) :
    Reads (valueCount maptype dim entries) [] (n : Int) := by
  intro rest
  unfold Vorbis.valueCount
  unfold Quant.Count at hc
  rcases hm with hm | hm
  · rw [if_pos hm] at hc ⊢
    obtain ⟨e1, e2⟩ := h1 hm
    rw [quantVals_eq _ _ n hc, if_neg (by omega), if_neg (by omega)]
    rfl
  · rw [if_neg (by omega)] at hc ⊢
    have := h2 hm
    unfold toInt32
    rw [← hc] at this ⊢
    rw [Nat.mod_eq_of_lt (by omega), if_pos (by omega)]
    rfl

theorem Reads.quant (maptype dim entries : Int) (q : Quant) (hq : q.Ok) (hm : maptype = 1 ∨ maptype = 2)
    (h1 : maptype = 1 → 1 ≤ dim ∧ (quantStart dim.toNat entries.toNat + 1) ^ dim.toNat < 2 ^ 63)
    (h2 : maptype = 2 → entries.toNat * dim.toNat < 2 ^ 31) (hc : Quant.Count maptype dim entries q.list.length) :
    Reads (unpackQuant maptype dim entries) q.bits q := by
  have a1 := hq.quant.1
  have a2 := hq.quant.2
  refine Reads.bind (Reads.rd hq.min) (Reads.bind (Reads.rd hq.delta) (Reads.bind (Reads.rd (v := q.quant - 1) ⟨by omega, by omega⟩)
    (Reads.bind (Reads.rd (hq.seq.mono (by omega) (by decide))) (Reads.bindNil (Reads.valueCount maptype dim entries _ hm h1 h2 hc) ?_))))
  rw [show q.quant - 1 + 1 = q.quant by omega]
  refine Reads.bindPure (a := q.list) ?_ (Reads.pure _)
  refine Reads.bindNil (Reads.chk _ (by simp)) ?_
  rw [Int.toNat_natCast]
  refine Reads.bindPure (Reads.many (fun v => enc q.quant.toNat v) q.list fun v hv => Reads.rd (hq.list v hv))
    (Reads.bindNil (Reads.need ?_) (Reads.pure _))
  simp only [ne_eq, decide_eq_true_eq]
  intro he
  have := hq.list _ (List.mem_of_getLast? he)
  have := this.1
  omega

theorem Reads.book (sh : Shape) (b : Book) (hb : b.Ok) (hs : b.Small) (hf : sh.Fits b.lengths) : Reads unpackBook (b.bits sh) b := by
  obtain ⟨o, bs, e1, e2, e3⟩ := Reads.lengths sh b.lengths hf
  unfold Book.bits
  rw [e1, List.append_assoc]
  refine Reads.bind (Reads.rd (v := 0x564342) (by decide)) (Reads.bindNil (Reads.need (by decide)) (Reads.bind (Reads.rd hb.dim)
    (Reads.bind (Reads.rd hb.entries) (Reads.bindNil (Reads.need ?_) (Reads.bind (Reads.rd (e2.mono (by omega) (by decide)))
    (Reads.bindNil (Reads.need ?_) (Reads.bind (a := b.lengths) ?_ (Reads.bind (Reads.rd (hb.maptype.mono (by omega) (by decide)))
    (Reads.bindNil (Reads.need ?_) (Reads.bindPure (a := b.quant) ?_ (Reads.pure _)))))))))))
  · have := hb.entries.1
    simp; omega
  · have := e2.1
    simp; omega
  · rw [← hb.lengths]
    exact e3
  · have h1 := hb.maptype.1
    have h2 := hb.maptype.2
    simp; omega
  · cases hq : b.quant with
    | none =>
      rw [if_pos (hb.none.2 hq)]
      exact Reads.pure _
    | some q =>
      have hm : b.maptype ≠ 0 := fun e => by rw [hb.none.1 e] at hq; simp at hq
      rw [if_neg hm]
      have h1 := hb.maptype.1
      have h2 := hb.maptype.2
      refine Reads.bindPure (Reads.quant _ _ _ q (hb.quant q hq) (by omega) (fun h => ?_) hs.2 (hb.count q hq)) (Reads.pure _)
      have := hs.1 h
      unfold quantStart
      rw [Nat.shiftRight_eq_div_pow]
      exact this

/-! ## Floors -/

theorem Reads.floor0 (books : Nat) (hb : books ≤ 256) (f : Floor0) (h : f.Ok books) : Reads (unpackFloor0 books) f.bits f := by
  have c1 := h.count.1
  have c2 := h.count.2
  refine Reads.bind (Reads.rd (h.order.mono (by omega) (by omega))) (Reads.bind (Reads.rd (h.rate.mono (by omega) (by omega)))
    (Reads.bind (Reads.rd (h.barkmap.mono (by omega) (by omega))) (Reads.bind (Reads.rd h.ampbits) (Reads.bind (Reads.rd h.ampdB)
    (Reads.bind (Reads.rd (v := f.books.length - 1) ⟨by omega, by omega⟩) (Reads.bindNil (Reads.need ?_)
    (Reads.bindPure (a := f.books) ?_ (Reads.pure _))))))))
  · have h1 := h.order.1
    have h2 := h.rate.1
    have h3 := h.barkmap.1
    simp only [decide_eq_true_eq]
    omega
  · rw [show ((f.books.length : Int) - 1 + 1).toNat = f.books.length by omega]
    refine Reads.each (fun b => enc 8 b) f.books 0 fun k b hk => ?_
    have hm := h.books b (List.mem_of_getElem? hk)
    have hk := List.getElem?_eq_some_iff.1 hk
    obtain ⟨hk, _⟩ := hk
    exact Reads.bindNil (Reads.chk _ (by simp only [decide_eq_true_eq]; omega)) (Reads.bindPure (Reads.rd (hm.mono (by omega) (by omega)))
      (Reads.bindNil (Reads.need (by have h1 := hm.1; have h2 := hm.2; simp only [decide_eq_true_eq]; omega)) (Reads.pure _)))

theorem Reads.pclass (books : Nat) (hb : books ≤ 256) (c : PClass) (h : c.Ok books) (j : Nat) (hj : j < 16) : Reads (unpackClass books j) c.bits c := by
  have d1 := h.dim.1
  have d2 := h.dim.2
  refine Reads.bindNil (Reads.chk _ (by simpa using hj)) (Reads.bind (Reads.field (v := c.dim - 1) (w := c.dim - 1) ⟨by omega, by omega⟩ rfl)
    (Reads.bind (Reads.rd (h.subs.mono (by omega) (by decide))) (Reads.bindNil (Reads.need (by simpa using h.subs.1))
    (Reads.bind (a := c.book) ?_ (Reads.bindNil (Reads.need ?_) (Reads.bindPure (a := c.subbooks) ?_ ?_))))))
  · by_cases hs : c.subs = 0
    · rw [if_pos hs, if_neg (by simpa using hs), h.unused hs]
      exact Reads.pure _
    · rw [if_neg hs, if_pos (by simpa using hs)]
      exact Reads.rd (h.book.mono (by omega) (by omega))
  · have h1 := h.book.1
    have h2 := h.book.2
    simp only [decide_eq_true_eq]
    omega
  · rw [← h.count]
    refine Reads.each (fun b => enc 8 (b + 1)) c.subbooks 0 fun k b hk => ?_
    have hm := h.subbooks b (List.mem_of_getElem? hk)
    obtain ⟨hk, _⟩ := List.getElem?_eq_some_iff.1 hk
    rw [h.count] at hk
    have s1 := h.subs.1
    have s2 := h.subs.2
    have : c.subs.toNat ≤ 3 := by omega
    have := Nat.pow_le_pow_right (show 0 < 2 by decide) this
    have m1 := hm.1
    have m2 := hm.2
    refine Reads.bindNil (Reads.chk _ (by simp only [decide_eq_true_eq]; omega)) (Reads.bindPure (Reads.rd (v := b + 1) ⟨by omega, by omega⟩)
      (Reads.bindNil (Reads.need (by simp only [decide_eq_true_eq]; omega)) ?_))
    rw [show b + 1 - 1 = b by omega]
    exact Reads.pure _
  · rw [show c.dim - 1 + 1 = c.dim by omega]
    exact Reads.pure _

theorem Reads.posts (classes : List PClass) (rangebits : Int) (hr : 0 ≤ rangebits) : ∀ (parts posts : List Int) (k : Nat),
    (∀ c ∈ parts, 0 ≤ c ∧ c < 16) → posts.length = postCount classes parts → k + posts.length ≤ 63 →
    (∀ p ∈ posts, In p 0 (2 ^ rangebits.toNat)) →
    Reads (unpackPosts classes rangebits parts k) (posts.flatMap fun p => enc rangebits.toNat p) posts := by
  intro parts
  induction parts with
  | nil =>
    intro posts k _ hl _ _
    have : posts = [] := List.length_eq_zero_iff.1 (by simpa [postCount] using hl)
    rw [this]
    exact Reads.pure _
  | cons c cs ih =>
    intro posts k hc hl hk hp
    obtain ⟨d, hd⟩ : ∃ d, d = (match classes[c.toNat]? with | some k => k.dim.toNat | none => 0) := ⟨_, rfl⟩
    have hdim : (((classes[c.toNat]?).map PClass.dim).getD 0).toNat = d := by rw [hd]; cases classes[c.toNat]? <;> rfl
    have hpc : postCount classes (c :: cs) = d + postCount classes cs := by
      rw [hd, postCount, postCount, List.map_cons, List.sum_cons]; rfl
    rw [hpc] at hl
    have ht : (posts.take d).length = d := by rw [List.length_take]; omega
    have hdr : (posts.drop d).length = postCount classes cs := by rw [List.length_drop]; omega
    conv => arg 2; rw [← List.take_append_drop d posts, List.flatMap_append]
    have hc1 := hc c (by simp)
    refine Reads.bindNil (Reads.chk _ (by simpa using hc1)) (Reads.bind (a := posts.take d) ?_ (Reads.bindPure (a := posts.drop d) ?_ ?_))
    · rw [hdim]
      conv => arg 1; arg 2; rw [← ht]
      refine Reads.each (fun p => enc rangebits.toNat p) (posts.take d) k fun i p hi => ?_
      have hm := hp p (List.mem_of_mem_take (List.mem_of_getElem? hi))
      obtain ⟨hi, _⟩ := List.getElem?_eq_some_iff.1 hi
      refine Reads.bindPure (Reads.rdI hr hm) (Reads.bindNil (Reads.chk _ (by simp only [decide_eq_true_eq]; omega))
        (Reads.bindNil (Reads.need (decide_eq_true hm)) (Reads.pure _)))
    · rw [ht]
      exact ih (posts.drop d) (k + d) (fun x hx => hc x (by simp [hx])) hdr (by omega) fun p hpm => hp p (List.mem_of_mem_drop hpm)
    · rw [List.take_append_drop]
      exact Reads.pure _

theorem Reads.floor1 (books : Nat) (hb : books ≤ 256) (f : Floor1) (h : f.Ok books) :
    Reads (unpackFloor1 books) f.bits f := by
  have p1 := h.parts
  have m1 := h.mult.1
  have m2 := h.mult.2
  have few := h.few
  refine Reads.bind (Reads.rd (v := f.parts.length) ⟨by omega, by omega⟩) (Reads.bind (a := f.parts) ?_ (Reads.bind (a := f.classes) ?_
    (Reads.bind (Reads.rd (v := f.mult - 1) ⟨by omega, by omega⟩) (Reads.bind (Reads.rd (h.range.mono (by omega) (by decide)))
    (Reads.bindPure (a := f.posts) ?_ (Reads.bindNil (Reads.chk _ (by simpa using h.range.1)) ?_))))))
  · rw [Int.toNat_natCast]
    refine Reads.each (fun c => enc 4 c) f.parts 0 fun k c hk => ?_
    have hm := h.used c (List.mem_of_getElem? hk)
    obtain ⟨hk, _⟩ := List.getElem?_eq_some_iff.1 hk
    exact Reads.bindNil (Reads.chk _ (by simp only [decide_eq_true_eq]; omega)) (Reads.rd (hm.mono (by omega) (by omega)))
  · have hmax : (f.parts.foldl max (-1) + 1).toNat = f.classes.length := by
      obtain ⟨g1, g2, g3⟩ := foldl_max f.parts (-1)
      by_cases hc : f.classes = []
      · have hp : f.parts = [] := by
          cases hp : f.parts with
          | nil => rfl
          | cons c cs =>
            have := h.used c (by rw [hp]; simp)
            have e1 := this.1
            have e2 := this.2
            rw [hc] at e2
            simp at e2
            omega
        rw [hp, hc]
        rfl
      · have n1 := g2 _ (h.needed hc)
        rcases g3 with g3 | g3
        · have : 0 < f.classes.length := List.length_pos_iff.2 hc
          omega
        · have := (h.used _ g3).2
          omega
    rw [hmax]
    refine Reads.each PClass.bits f.classes 0 fun k c hk => ?_
    have hm := List.mem_of_getElem? hk
    obtain ⟨hk, _⟩ := List.getElem?_eq_some_iff.1 hk
    exact Reads.pclass books hb c (h.classes c hm) _ (by omega)
  · exact Reads.posts f.classes f.rangebits h.range.1 f.parts f.posts 0
      (fun c hc => ⟨(h.used c hc).1, by have := (h.used c hc).2; omega⟩) h.count (by have := h.most; omega) h.posts
  · rw [show f.mult - 1 + 1 = f.mult by omega]
    exact Reads.pure _

/-! ## Residues -/

theorem Reads.stage (s : Nat) (h : s < 256) (j : Nat) (hj : j < 64) : Reads (unpackStage j) (stageBits s) s := by
  unfold stageBits
  refine Reads.bind (Reads.rd (v := ((s % 8 : Nat) : Int)) ⟨by omega, by omega⟩) ?_
  by_cases h8 : s < 8
  · rw [if_pos h8]
    refine Reads.bindPure (Reads.rd (v := 0) (by decide)) ?_
    rw [if_neg (by decide)]
    refine Reads.bindNil (Reads.pure _) (Reads.bindNil (Reads.chk _ (by simpa using hj)) ?_)
    rw [if_neg (by omega), if_neg (by omega), show ((s % 8 : Nat) : Int).toNat + 8 * (0 : Int).toNat = s by omega]
    exact Reads.pure _
  · rw [if_neg h8]
    refine Reads.bind (Reads.rd (v := 1) (by decide)) ?_
    rw [if_pos (by decide)]
    refine Reads.bindPure (Reads.rd (v := ((s / 8 : Nat) : Int)) ⟨by omega, by omega⟩) (Reads.bindNil (Reads.chk _ (by simpa using hj)) ?_)
    rw [if_neg (by omega), if_neg (by omega), show ((s % 8 : Nat) : Int).toNat + 8 * ((s / 8 : Nat) : Int).toNat = s by omega]
    exact Reads.pure _

theorem Reads.residue (books : Nat) (hb : books ≤ 256) (r : Residue) (h : r.Ok books) : Reads (unpackResidue books) r.bits r := by
  have p1 := h.parts.1
  have p2 := h.parts.2
  have g1 := h.grouping.1
  have g2 := h.grouping.2
  refine Reads.bind (Reads.rd h.begin) (Reads.bind (Reads.rd h.end) (Reads.bind (Reads.rd (v := r.grouping - 1) ⟨by omega, by omega⟩)
    (Reads.bind (Reads.rd (v := r.stages.length - 1) ⟨by omega, by omega⟩) (Reads.bind (Reads.rd (h.groupbook.mono (by omega) (by omega)))
    (Reads.bind (a := r.stages) ?_ (Reads.bindPure (a := r.books) ?_ (Reads.bindNil (Reads.need (by simpa using h.groupbook.2))
    (Reads.bindNil (Reads.need ?_) ?_))))))))
  · rw [show ((r.stages.length : Int) - 1 + 1).toNat = r.stages.length by omega]
    refine Reads.each stageBits r.stages 0 fun k s hk => ?_
    have hm := h.stages s (List.mem_of_getElem? hk)
    obtain ⟨hk, _⟩ := List.getElem?_eq_some_iff.1 hk
    exact Reads.stage s hm _ (by omega)
  · rw [show (r.stages.map icount).sum = r.books.length by
      rw [h.count]
      congr 1
      exact List.map_congr_left fun s hs => icount_ones s (h.stages s hs)]
    refine Reads.each (fun b => enc 8 b) r.books 0 fun k b hk => ?_
    have hm := h.books b (List.mem_of_getElem? hk)
    obtain ⟨hk, _⟩ := List.getElem?_eq_some_iff.1 hk
    have := h.most
    exact Reads.bindPure (Reads.rd (hm.mono (by omega) (by omega))) (Reads.bindNil (Reads.chk _ (by simp only [decide_eq_true_eq]; omega))
      (Reads.pure _))
  · rw [List.all_eq_true]
    intro b hb
    exact decide_eq_true (h.books b hb).2
  · rw [show r.grouping - 1 + 1 = r.grouping by omega]
    exact Reads.pure _

/-! ## Mappings -/

theorem Reads.coupling (channels : Nat) (c : Int × Int) (h : In c.1 0 channels ∧ In c.2 0 channels ∧ c.1 ≠ c.2) (i : Nat) (hi : i < 256) :
    Reads (unpackCoupling channels i) (enc (ilog (channels - 1)) c.1 ++ enc (ilog (channels - 1)) c.2) c := by
  obtain ⟨h1, h2, h3⟩ := h
  have a1 := h1.1
  have a2 := h1.2
  have b1 := h2.1
  have b2 := h2.2
  have hw : (channels : Int) ≤ 2 ^ ilog (channels - 1) := by
    have := ilog_lt (channels - 1)
    have h2 : ((channels - 1 : Nat) : Int) < ((2 ^ ilog (channels - 1) : Nat) : Int) := by omega
    rw [show ((2 ^ ilog (channels - 1) : Nat) : Int) = 2 ^ ilog (channels - 1) by simp] at h2
    omega
  unfold unpackCoupling
  simp only [Int.toNat_natCast, ilog1]
  refine Reads.bind (Reads.rd (h1.mono (by omega) hw)) (Reads.bindNil (Reads.chk _ (by simpa using hi))
    (Reads.bindPure (Reads.rd (h2.mono (by omega) hw)) (Reads.bindNil (Reads.need ?_) (Reads.pure _))))
  simp only [decide_eq_true_eq]
  exact ⟨a1, b1, h3, a2, b2⟩

theorem Reads.submap (times : Int) (ht : 1 ≤ times) (floors residues : Nat) (hf : floors ≤ 64) (hr : residues ≤ 64) (f : Int × Int)
    (h1 : In f.1 0 floors) (h2 : In f.2 0 residues) (i : Nat) (hi : i < 16) :
    Reads (unpackSubmap times floors residues i) (enc 8 0 ++ (enc 8 f.1 ++ enc 8 f.2)) f := by
  have a1 : In f.1 0 (2 ^ 8) := h1.mono (by omega) (by omega)
  have a2 : In f.2 0 (2 ^ 8) := h2.mono (by omega) (by omega)
  refine Reads.bind (Reads.rd (v := 0) (by decide)) (Reads.bindNil (Reads.need (decide_eq_true (by omega)))
    (Reads.bind (Reads.rd a1) (Reads.bindNil (Reads.chk _ (decide_eq_true hi)) (Reads.bindNil (Reads.need (decide_eq_true h1.2))
    (Reads.bindPure (Reads.rd a2) (Reads.bindNil (Reads.need (decide_eq_true h2.2)) (Reads.pure _)))))))

theorem Reads.muxes (channels : Nat) (hc : channels < 256) (floors residues : Nat) (m : Mapping) (h : m.Ok channels floors residues) :
    Reads (if m.submaps > 1 then Vorbis.each (unpackMux m.submaps) (channels : Int).toNat 0 else Pure.pure [])
      (m.mux.flatMap fun c => enc 4 c) m.mux := by
  have hm := h.muxes
  have s1 := h.submaps.1
  have s2 := h.submaps.2
  by_cases hs : m.submaps = 1
  · rw [if_pos hs] at hm
    rw [if_neg (by omega), List.length_eq_zero_iff.1 hm]
    exact Reads.pure _
  · rw [if_neg hs] at hm
    rw [if_pos (by omega), Int.toNat_natCast]
    conv => arg 1; arg 2; rw [← hm]
    refine Reads.each (fun c => enc 4 c) m.mux 0 fun k c hk => ?_
    have hx := h.mux c (List.mem_of_getElem? hk)
    obtain ⟨hk, _⟩ := List.getElem?_eq_some_iff.1 hk
    have a1 : In c 0 (2 ^ 4) := hx.mono (by omega) (by omega)
    exact Reads.bindPure (Reads.rd a1) (Reads.bindNil (Reads.chk _ (decide_eq_true (by omega)))
      (Reads.bindNil (Reads.need (decide_eq_true hx.2)) (Reads.pure _)))

theorem Reads.submaps (channels : Nat) (times : Int) (ht : 1 ≤ times) (floors residues : Nat) (hf : floors ≤ 64)
    (hr : residues ≤ 64) (m : Mapping) (h : m.Ok channels floors residues) :
    Reads (Vorbis.each (unpackSubmap times floors residues) m.submaps.toNat 0)
      (m.floors.flatMap fun f => enc 8 0 ++ (enc 8 f.1 ++ enc 8 f.2)) m.floors := by
  have s2 := h.submaps.2
  rw [← h.count]
  refine Reads.each _ m.floors 0 fun k f hk => ?_
  obtain ⟨h1, h2⟩ := h.floors f (List.mem_of_getElem? hk)
  obtain ⟨hk, _⟩ := List.getElem?_eq_some_iff.1 hk
  have := h.count
  exact Reads.submap times ht floors residues hf hr f h1 h2 _ (by omega)

theorem Reads.mapTail (channels : Nat) (hc : channels < 256) (times : Int) (ht : 1 ≤ times) (floors residues : Nat) (hf : floors ≤ 64)
    (hr : residues ≤ 64) (m : Mapping) (h : m.Ok channels floors residues) :
    Reads (do
      let reserved ← Vorbis.rd 2
      Vorbis.need (decide (reserved ≤ 0))
      let mux ← (if m.submaps > 1 then Vorbis.each (unpackMux m.submaps) (channels : Int).toNat 0 else Pure.pure [])
      let l ← Vorbis.each (unpackSubmap times floors residues) m.submaps.toNat 0
      Pure.pure (⟨m.submaps, m.coupling, mux, l⟩ : Mapping))
      (enc 2 0 ++ ((m.mux.flatMap fun c => enc 4 c) ++ m.floors.flatMap fun f => enc 8 0 ++ (enc 8 f.1 ++ enc 8 f.2))) m := by
  refine Reads.bind (Reads.rd (v := 0) (by decide)) ?_
  refine Reads.bindNil (Reads.need (by decide)) ?_
  refine Reads.bind (Reads.muxes channels hc floors residues m h) ?_
  exact Reads.bindPure (Reads.submaps channels times ht floors residues hf hr m h) (Reads.pure _)

theorem Reads.mapping (channels : Nat) (hc : channels < 256) (times : Int) (ht : 1 ≤ times) (floors residues : Nat) (hf : floors ≤ 64)
    (hr : residues ≤ 64) (m : Mapping) (h : m.Ok channels floors residues) :
    Reads (unpackMapping channels times floors residues) (m.bits (ilog (channels - 1))) m := by
  have s1 := h.submaps.1
  have s2 := h.submaps.2
  have st := h.steps
  unfold Mapping.bits
  refine Reads.bind (a := m.submaps) ?_ ?_
  · by_cases hs : m.submaps = 1
    · rw [if_pos hs, hs]
      refine Reads.bindPure (Reads.rd (v := 0) (by decide)) ?_
      rw [if_neg (by decide)]
      exact Reads.pure _
    · rw [if_neg hs]
      refine Reads.bind (Reads.rd (v := 1) (by decide)) ?_
      rw [if_pos (by decide)]
      refine Reads.bindPure (Reads.rd (v := m.submaps - 1) ⟨by omega, by omega⟩) ?_
      rw [show m.submaps - 1 + 1 = m.submaps by omega]
      exact Reads.pure _
  · have tail := Reads.mapTail channels hc times ht floors residues hf hr m h
    by_cases hs : m.coupling = []
    · rw [if_pos hs]
      refine Reads.bind (a := 0) ?_ (Reads.bindNil (a := m.coupling) ?_ tail)
      · refine Reads.bindPure (Reads.rd (v := 0) (by decide)) ?_
        rw [if_neg (by decide)]
        exact Reads.pure _
      · rw [hs]
        exact Reads.pure _
    · rw [if_neg hs]
      have hpos : 0 < m.coupling.length := List.length_pos_iff.2 hs
      rw [show (enc 1 1 ++ (enc 8 (↑m.coupling.length - 1) ++ List.flatMap (fun c => enc (ilog (channels - 1)) c.1 ++
        enc (ilog (channels - 1)) c.2) m.coupling)) = (enc 1 1 ++ enc 8 (↑m.coupling.length - 1)) ++ List.flatMap (fun c =>
        enc (ilog (channels - 1)) c.1 ++ enc (ilog (channels - 1)) c.2) m.coupling by rw [List.append_assoc], List.append_assoc]
      refine Reads.bind (a := (m.coupling.length : Int)) ?_ (Reads.bind (a := m.coupling) ?_ tail)
      · refine Reads.bind (Reads.rd (v := 1) (by decide)) ?_
        rw [if_pos (by decide)]
        refine Reads.bindPure (Reads.rd (v := m.coupling.length - 1) ⟨by omega, by omega⟩) ?_
        rw [show (m.coupling.length : Int) - 1 + 1 = m.coupling.length by omega]
        exact Reads.pure _
      · rw [Int.toNat_natCast]
        refine Reads.each _ m.coupling 0 fun k c hk => ?_
        have hx := h.coupling c (List.mem_of_getElem? hk)
        obtain ⟨hk, _⟩ := List.getElem?_eq_some_iff.1 hk
        exact Reads.coupling channels c hx _ (by omega)

end Verif.Vorbis
