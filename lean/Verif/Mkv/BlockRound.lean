import Mathlib.Data.List.Forall2
import Verif.Mkv.BlockLemmas
/-! Lemmas on writing and reading whole blocks. -/
set_option linter.unusedSimpArgs false
namespace Verif.Mkv
open Verif Verif.Ebml

/-- Sizes a lacing mode can carry. -/
def LaceOk (lac : Lacing) (ns : List Nat) : Prop :=
  match lac with
  | .none => ns.length = 1 ∧ ∀ n ∈ ns, n < 2 ^ 31
  | .xiph => 1 ≤ ns.length ∧ ns.length ≤ 256 ∧ ∀ n ∈ ns, n < 2 ^ 31
  | .fixed => 1 ≤ ns.length ∧ ns.length ≤ 256 ∧ (∀ n ∈ ns, ∀ m ∈ ns, n = m) ∧ (∀ n ∈ ns, n < 2 ^ 31) ∧ ns.sum < 2 ^ 32
  | .ebml => 2 ≤ ns.length ∧ ns.length ≤ 256 ∧ (∀ n ∈ ns, n < 2 ^ 27) ∧ ns.sum + 4 * ns.length < 2 ^ 32

/-- The sizes as the `int32_t` values handed to the lace writer. -/
def ints (ns : List Nat) : List Int := ns.map fun n : Nat => (n : Int)

theorem LaceOk.lt {lac : Lacing} {ns : List Nat} (h : LaceOk lac ns) : ∀ n ∈ ns, n < 2 ^ 31 := by
  cases lac
  · exact h.2
  · exact h.2.2
  · exact h.2.2.2.1
  · intro n hn
    have := h.2.2.1 n hn
    omega

theorem ints_dropLast (ns : List Nat) : (ints ns).dropLast = ints ns.dropLast := by
  simp [ints, List.map_dropLast]

theorem xiph_flat (ns : List Nat) : (ints ns).flatMap xiphSize = ns.flatMap xiphOne := by
  induction ns with
  | nil => rfl
  | cons n ns ih =>
    simp only [ints, List.map_cons, List.flatMap_cons] at *
    rw [ih]
    congr 1

theorem xiph_flat_length (ns : List Nat) : (ns.flatMap xiphOne).length = (ns.map fun s => s / 255 + 1).sum := by
  induction ns with
  | nil => rfl
  | cons n ns ih => simp only [List.flatMap_cons, List.length_append, xiphOne_length, ih, List.map_cons, List.sum_cons]

theorem xiphTotal_eq (ns : List Nat) : xiphTotal ns = ns.sum + (ns.flatMap xiphOne).length := by
  induction ns with
  | nil => rfl
  | cons n ns ih =>
    simp only [xiphTotal, List.map_cons, List.sum_cons, List.flatMap_cons, List.length_append, xiphOne_length] at *
    omega

theorem countByte_at (hd : Bytes) (b : UInt8) (rest : Bytes) : countByte (hd ++ b :: rest) hd.length = b := by
  simp [countByte]

theorem ofNat_count (n : Nat) (h1 : 1 ≤ n) (h2 : n ≤ 256) : (UInt8.ofNat ((n - 1) % 256)).toNat = n - 1 := by
  simp; omega

theorem sum_const (ns : List Nat) (m : Nat) (h : ∀ n ∈ ns, n = m) : ns.sum = ns.length * m := by
  induction ns with
  | nil => simp
  | cons a as ih =>
    have := h a (by simp)
    have := ih (fun n hn => h n (List.mem_cons_of_mem _ hn))
    simp only [List.sum_cons, List.length_cons, Nat.succ_mul]
    omega

theorem eq_replicate (ns : List Nat) (m : Nat) (h : ∀ n ∈ ns, n = m) : ns = List.replicate ns.length m :=
  List.eq_replicate_iff.2 ⟨rfl, h⟩

/-- The sizes written in a lace are the sizes parsed from it. -/
theorem parseSizes_ok (lac : Lacing) (ns : List Nat) (hok : LaceOk lac ns) (hd tail : Bytes) :
    parseSizes lac hd.length (hd ++ laceHead lac (ints ns) ++ tail)
      (hd.length + (laceHead lac (ints ns)).length + ns.sum)
      = .ok (ns, hd.length + (laceHead lac (ints ns)).length) := by
  have hint : (ints ns).length = ns.length := by simp [ints]
  cases lac with
  | none =>
    obtain ⟨h1, hlt⟩ := hok
    match ns, h1, hlt with
    | [n], _, hlt =>
      have := hlt n (by simp)
      have e : (((hd.length + (laceHead .none (ints [n])).length + [n].sum : Nat) : Int) - (hd.length : Int)) = (n : Int) := by
        simp only [laceHead, List.sum_cons, List.sum_nil, List.length_nil]; omega
      simp only [parseSizes, e, u32_of_lt n (by omega)]
      simp [laceHead]
  | xiph =>
    obtain ⟨h1, h2, hlt⟩ := hok
    have hne : ns ≠ [] := by intro h; subst h; simp at h1
    have hsplit := List.dropLast_concat_getLast hne
    generalize hi : ns.dropLast = init at *
    generalize ht : ns.getLast hne = t at *
    have hlen : init.length = ns.length - 1 := by rw [← hi]; simp
    have elace : laceHead .xiph (ints ns) = UInt8.ofNat ((ns.length - 1) % 256) :: init.flatMap xiphOne := by
      simp only [laceHead, laceSizes, hint, ints_dropLast, hi, xiph_flat]
    have hmem : ∀ s ∈ init, s < 2 ^ 32 := by
      intro s hs
      have := hlt s (by rw [← hsplit]; simp [hs])
      omega
    have htl : t < 2 ^ 32 := by
      have := hlt t (by rw [← hsplit]; simp)
      omega
    have hsum : ns.sum = init.sum + t := by rw [← hsplit]; simp
    rw [elace]
    simp only [parseSizes, List.append_assoc, List.cons_append]
    rw [countByte_at, ofNat_count _ h1 h2, ← hlen]
    have edrop : (hd ++ UInt8.ofNat (init.length % 256) :: (init.flatMap xiphOne ++ tail)).drop (hd.length + 1)
        = init.flatMap xiphOne ++ tail := by
      rw [← List.drop_drop, List.drop_left' rfl]; rfl
    rw [edrop]
    have eleft : (((hd.length + (UInt8.ofNat (init.length % 256) :: init.flatMap xiphOne).length + ns.sum : Nat) : Int)
        - (hd.length : Int) - 1) = ((xiphTotal init + t : Nat) : Int) := by
      rw [xiphTotal_eq, hsum]
      simp only [List.length_cons]
      omega
    rw [eleft, xiphSizes_ok init _ _ t _ hmem htl, hsplit]
    simp only [Out.ok.injEq, Prod.mk.injEq, true_and, List.length_cons]
    omega
  | fixed =>
    obtain ⟨h1, h2, heq, hlt, hs⟩ := hok
    match ns, h1 with
    | m :: ms, h1 =>
      have hall : ∀ n ∈ m :: ms, n = m := fun n hn => heq n hn m (by simp)
      have hsum := sum_const (m :: ms) m hall
      have elace : laceHead .fixed (ints (m :: ms)) = [UInt8.ofNat (((m :: ms).length - 1) % 256)] := by
        simp only [laceHead, laceSizes, hint]
      rw [elace]
      simp only [parseSizes, List.append_assoc, List.cons_append, List.nil_append]
      rw [countByte_at, ofNat_count _ h1 h2]
      have el : (m :: ms).length - 1 + 1 = (m :: ms).length := by simp
      have eleft : u32 (((hd.length + ([UInt8.ofNat (((m :: ms).length - 1) % 256)] : Bytes).length + (m :: ms).sum : Nat) : Int)
          - (hd.length : Int) - 1) = (m :: ms).sum := by
        have : (((hd.length + ([UInt8.ofNat (((m :: ms).length - 1) % 256)] : Bytes).length + (m :: ms).sum : Nat) : Int)
          - (hd.length : Int) - 1) = ((m :: ms).sum : Nat) := by
          simp only [List.length_singleton]; omega
        rw [this]
        exact u32_of_lt _ hs
      rw [el, eleft, hsum, Nat.mul_div_cancel_left m (by simp), ← eq_replicate (m :: ms) m hall]
      simp
  | ebml =>
    obtain ⟨h1, h2, hlt, hs⟩ := hok
    match ns, h1 with
    | s0 :: rest', h1 =>
      have hne : rest' ≠ [] := by intro h; subst h; simp at h1
      have hsplit := List.dropLast_concat_getLast hne
      generalize hi : rest'.dropLast = init at *
      generalize ht : rest'.getLast hne = t at *
      have hlen : rest'.length = init.length + 1 := by rw [← hsplit]; simp
      have hl0 : s0 < 2 ^ 27 := hlt s0 (by simp)
      have hmem : ∀ s ∈ init, s < 2 ^ 27 := by
        intro s hs
        exact hlt s (by rw [← hsplit]; simp [hs])
      have elace : laceHead .ebml (ints (s0 :: rest')) = UInt8.ofNat (((s0 :: rest').length - 1) % 256) ::
          (codedValue s0 (codedSizeLength s0 0 true) true ++ ebmlCoded s0 (init.map fun n : Nat => (n : Int))) := by
        rw [laceHead, hint]
        simp only [laceSizes, ints, List.map_cons, ← List.map_dropLast, hi]
        exact fun h => by simp at h
      have hlacelen : (codedValue s0 (codedSizeLength s0 0 true) true ++ ebmlCoded s0 (init.map fun n : Nat => (n : Int))).length
          = codedSizeLength s0 0 true + ebmlLen s0 init := by
        rw [List.length_append, ebmlCoded_length, codedValue_length _ _ _ (codedSizeLength_range (s0 : Int) 0 (by omega) true).1]
      have hsum : (s0 :: rest').sum = s0 + init.sum + t := by rw [← hsplit]; simp; omega
      have h4 := codedSizeLength_le4 s0 hl0
      have hl4 := ebmlLen_le init s0 hl0 hmem
      have htot := ebmlTotal_eq init s0
      rw [elace]
      generalize hlc : codedValue s0 (codedSizeLength s0 0 true) true ++ ebmlCoded s0 (init.map fun n : Nat => (n : Int)) = lc at *
      simp only [parseSizes, List.append_assoc, List.cons_append]
      rw [countByte_at, ofNat_count _ (by omega) h2]
      have edrop : (hd ++ UInt8.ofNat (((s0 :: rest').length - 1) % 256) :: (lc ++ tail)).drop (hd.length + 1)
          = lc ++ tail := by
        rw [← List.drop_drop, List.drop_left' rfl]; rfl
      have eleft : u32 (((hd.length + (UInt8.ofNat (((s0 :: rest').length - 1) % 256) :: lc).length + (s0 :: rest').sum : Nat) : Int)
          - (hd.length : Int) - 1) = s0 + codedSizeLength s0 0 true + ebmlTotal s0 init + t := by
        have : (((hd.length + (UInt8.ofNat (((s0 :: rest').length - 1) % 256) :: lc).length + (s0 :: rest').sum : Nat) : Int)
          - (hd.length : Int) - 1) = ((s0 + codedSizeLength s0 0 true + ebmlTotal s0 init + t : Nat) : Int) := by
          rw [hsum]
          simp only [List.length_cons, hlacelen]
          omega
        rw [this]
        apply u32_of_lt
        rw [hsum] at hs
        simp only [List.length_cons] at hs
        omega
      have ecnt : (s0 :: rest').length - 1 = init.length + 1 := by simp [hlen]
      rw [edrop, eleft, ecnt, ← hlc, ebmlSizes_ok s0 init tail t _ hl0 hmem (by
        rw [hsum] at hs
        simp only [List.length_cons] at hs
        omega)]
      rw [List.cons_append, hsplit, hlc]
      simp only [Out.ok.injEq, Prod.mk.injEq, true_and, List.length_cons]
      omega

/-! Frame data -/

theorem bufSize_ok (ns : List Nat) (h : ∀ n ∈ ns, n < 2 ^ 31) : bufSize ns = (ns.sum : Nat) := by
  induction ns with
  | nil => rfl
  | cons n ns ih =>
    have h0 := h n (by simp)
    have := ih (fun m hm => h m (List.mem_cons_of_mem _ hm))
    simp only [bufSize, List.map_cons, List.sum_cons] at *
    rw [s32_of_lt n h0, this]
    omega

theorem flatten_length (fs : List Bytes) : fs.flatten.length = (fs.map List.length).sum := by
  simp [List.length_flatten]

theorem readPlain_ok (fs : List Bytes) (h : ∀ f ∈ fs, f.length < 2 ^ 31) (pre rest : Bytes) :
    readPlain (fs.map List.length) pre.length (pre ++ (fs.flatten ++ rest)) = .ok fs.flatten := by
  unfold readPlain
  have hb := bufSize_ok (fs.map List.length) (by
    intro n hn
    obtain ⟨f, hf, rfl⟩ := List.mem_map.1 hn
    exact h f hf)
  rw [hb, if_neg (by omega), List.drop_left' rfl]
  have e : (((fs.map List.length).sum : Nat) : Int).toNat = fs.flatten.length := by rw [flatten_length]; simp
  simp only
  rw [e, List.take_left' rfl, if_neg (by rw [flatten_length]; omega)]

/-- The frames without the header that header stripping removes. -/
def stripped (hdr : Bytes) (fs : List Bytes) : List Bytes := fs.map (List.drop hdr.length)

theorem stripFrames_ok (hdr : Bytes) (fs : List Bytes) (h : ∀ f ∈ fs, f.take hdr.length = hdr) :
    stripFrames hdr fs.flatten (fs.map List.length) = .ok (stripped hdr fs).flatten := by
  induction fs with
  | nil => rfl
  | cons f fs ih =>
    have h0 := h f (by simp)
    have hl : hdr.length ≤ f.length := by
      have := congrArg List.length h0
      simp at this; omega
    simp only [List.flatten_cons, List.map_cons, stripFrames, stripped]
    rw [if_neg (by simp only [List.length_append]; omega), if_neg (by
      rw [List.take_append_of_le_length hl, h0]; simp), if_neg (by omega), List.drop_left' rfl, List.take_left' rfl,
      ih (fun g hg => h g (List.mem_cons_of_mem _ hg)), bind_ok]
    rfl

theorem readStrip_ok (hdr : Bytes) (fs : List Bytes) (h : ∀ f ∈ fs, f.take hdr.length = hdr)
    (hlt : ∀ f ∈ fs, f.length < 2 ^ 31) : ∀ (rest : Bytes),
    readStrip hdr ((fs.map List.length).sum : Nat) ((stripped hdr fs).flatten ++ rest) (fs.map List.length)
      = .ok fs.flatten := by
  induction fs with
  | nil => intro rest; rfl
  | cons f fs ih =>
    intro rest
    have h0 := h f (by simp)
    have hl0 := hlt f (by simp)
    have hl : hdr.length ≤ f.length := by
      have := congrArg List.length h0
      simp at this; omega
    simp only [List.map_cons, readStrip, stripped, List.flatten_cons, List.append_assoc, List.sum_cons]
    rw [s32_of_lt _ hl0, if_neg (by omega), if_neg (by omega), if_neg (by omega)]
    have e : ((f.length : Int)).toNat - hdr.length = (f.drop hdr.length).length := by simp
    rw [e, if_neg (by simp only [List.length_append]; omega), List.drop_left' rfl, List.take_left' rfl]
    have e2 : (((f.length + (fs.map List.length).sum : Nat) : Int) - (f.length : Int)) = ((fs.map List.length).sum : Nat) := by omega
    have := ih (fun g hg => h g (List.mem_cons_of_mem _ hg)) (fun g hg => hlt g (List.mem_cons_of_mem _ hg)) rest
    simp only [stripped] at this
    rw [e2, this, bind_ok]
    congr 1
    rw [← List.append_assoc]
    congr 1
    conv => rhs; rw [← List.take_append_drop hdr.length f]
    rw [h0]

theorem stripped_sizes (hdr : Bytes) (fs : List Bytes) (h : ∀ f ∈ fs, f.take hdr.length = hdr)
    (hlt : ∀ f ∈ fs, f.length < 2 ^ 31) :
    ((stripped hdr fs).map List.length).map (fun n : Nat => u32 ((n : Int) + hdr.length)) = fs.map List.length := by
  simp only [stripped, List.map_map]
  apply List.map_congr_left
  intro f hf
  have h0 := h f hf
  have hl : hdr.length ≤ f.length := by
    have := congrArg List.length h0
    simp at this; omega
  have := hlt f hf
  simp only [Function.comp_apply, List.length_drop]
  have e : (((f.length - hdr.length : Nat) : Int) + (hdr.length : Int)) = (f.length : Nat) := by omega
  rw [e, u32_of_lt _ (by omega)]

theorem zlibFrames_ok (deflate : Bytes → Bytes) (fs : List Bytes) (h : ∀ f ∈ fs, (deflate f).length ≤ f.length + 100)
    (hne : ∀ f ∈ fs, f ≠ []) : zlibFrames deflate fs = .ok (fs.map deflate).flatten := by
  induction fs with
  | nil => rfl
  | cons f fs ih =>
    have h0 := h f (by simp)
    simp only [zlibFrames, List.map_cons, List.flatten_cons]
    rw [if_neg (hne f (by simp)), if_neg (by omega), ih (fun g hg => h g (List.mem_cons_of_mem _ hg)) (fun g hg => hne g (List.mem_cons_of_mem _ hg)),
      bind_ok]

theorem zlibFrames_ne (deflate : Bytes → Bytes) : ∀ (fs : List Bytes) (r : Bytes), zlibFrames deflate fs = .ok r → ∀ f ∈ fs, f ≠ []
  | [], _, _ => by simp
  | f :: fs, r, h => by
    rw [zlibFrames] at h
    by_cases c : f = []
    · rw [if_pos c] at h; simp at h
    rw [if_neg c] at h
    by_cases c2 : f.length + 100 < (deflate f).length
    · rw [if_pos c2] at h; simp at h
    rw [if_neg c2] at h
    intro g hg
    rcases List.mem_cons.1 hg with rfl | hg
    · exact c
    · cases e : zlibFrames deflate fs with
      | ok r' => exact zlibFrames_ne deflate fs r' e g hg
      | err => rw [e] at h; simp [Out.bind] at h
      | bad => rw [e] at h; simp [Out.bind] at h
      | hang => rw [e] at h; simp [Out.bind] at h

theorem readZlib_ok (deflate : Bytes → Bytes) (inflate : Bytes → Option Bytes)
    (hinv : ∀ f, inflate (deflate f) = some f) (fs : List Bytes)
    (hlt : ∀ f ∈ fs, f.length < 2 ^ 31) (hlt2 : ∀ f ∈ fs, (deflate f).length < 2 ^ 31) :
    readZlib inflate (fs.map deflate).flatten ((fs.map deflate).map List.length)
      = .ok (fs.map List.length, fs.flatten) := by
  induction fs with
  | nil => rfl
  | cons f fs ih =>
    have h0 := hlt f (by simp)
    have h2 := hlt2 f (by simp)
    simp only [List.map_cons, List.flatten_cons, readZlib]
    rw [s32_of_lt _ h2, if_neg (by simp only [List.length_append]; omega), List.take_left' rfl, hinv]
    simp only
    rw [List.drop_left' rfl, ih (fun g hg => hlt g (List.mem_cons_of_mem _ hg)) (fun g hg => hlt2 g (List.mem_cons_of_mem _ hg)),
      bind_ok, u32_of_lt _ (by omega)]

/-- Frames unpacked one by one, whatever packed them. -/
theorem readZlib_packed (inflate : Bytes → Option Bytes) (fs ps : List Bytes) (hinv : List.Forall₂ (fun f p => inflate p = some f) fs ps)
    (hlt : ∀ f ∈ fs, f.length < 2 ^ 31) (hlt2 : ∀ p ∈ ps, p.length < 2 ^ 31) :
    readZlib inflate ps.flatten (ps.map List.length) = .ok (fs.map List.length, fs.flatten) := by
  induction hinv with
  | nil => rfl
  | @cons f p fs ps h _ ih =>
    have h0 := hlt f (by simp)
    have h2 := hlt2 p (by simp)
    simp only [List.map_cons, List.flatten_cons, readZlib]
    rw [s32_of_lt _ h2, if_neg (by simp only [List.length_append]; omega), List.take_left' rfl, h]
    simp only
    rw [List.drop_left' rfl, ih (fun g hg => hlt g (List.mem_cons_of_mem _ hg)) (fun g hg => hlt2 g (List.mem_cons_of_mem _ hg)),
      bind_ok, u32_of_lt _ (by omega)]

/-- What is stored for each frame. -/
def stored (enc : Enc) (fs : List Bytes) : List Bytes :=
  match enc with
  | .strip hdr true => stripped hdr fs
  | .zlib deflate _ true => fs.map deflate
  | _ => fs

/-- The frames an encoding can carry: header stripping covers blocks and every frame starts
with the header; zlib inverts and does not outgrow its buffer. -/
def EncOk (enc : Enc) (fs : List Bytes) : Prop :=
  match enc with
  | .plain => True
  | .strip hdr onBlocks => onBlocks = true ∧ ∀ f ∈ fs, f.take hdr.length = hdr
  | .zlib deflate inflate onBlocks => onBlocks = true →
      (∀ f, inflate (deflate f) = some f) ∧ ∀ f ∈ fs, (deflate f).length ≤ f.length + 100

/-- The frames that can be written: compressing an empty frame with zlib does not end. -/
def FramesOk (enc : Enc) (fs : List Bytes) : Prop :=
  match enc with
  | .zlib _ _ true => ∀ f ∈ fs, f ≠ []
  | _ => True

theorem frameSizes_eq (enc : Enc) (fs : List Bytes) (h : EncOk enc fs) :
    fs.map (frameSize enc) = ints ((stored enc fs).map List.length) := by
  match enc, h with
  | .plain, _ => simp [frameSize, ints, stored]
  | .strip hdr true, h =>
    simp only [stored, stripped, ints, List.map_map]
    apply List.map_congr_left
    intro f hf
    have h0 := h.2 f hf
    have hl : hdr.length ≤ f.length := by
      have := congrArg List.length h0
      simp at this; omega
    simp only [frameSize, Function.comp_apply, List.length_drop]
    omega
  | .zlib d i true, _ =>
    simp only [stored, ints, List.map_map]
    rfl
  | .zlib d i false, _ => simp [frameSize, ints, stored]

theorem writeFrames_ok (enc : Enc) (fs : List Bytes) (h : EncOk enc fs) (hw : FramesOk enc fs) :
    writeFrames enc fs = .ok (stored enc fs).flatten := by
  match enc, h, hw with
  | .plain, _, _ => rfl
  | .strip hdr true, h, _ => exact stripFrames_ok hdr fs h.2
  | .zlib d i true, h, hw => exact zlibFrames_ok d fs (h rfl).2 hw
  | .zlib d i false, _, _ => rfl

theorem writeFrames_framesOk (enc : Enc) (fs : List Bytes) (r : Bytes) (h : writeFrames enc fs = .ok r) : FramesOk enc fs := by
  match enc, h with
  | .plain, _ => trivial
  | .strip hdr b, _ => trivial
  | .zlib d i true, h => exact zlibFrames_ne d fs r h
  | .zlib d i false, _ => trivial

theorem readData_ok (enc : Enc) (fs : List Bytes) (h : EncOk enc fs) (hlt : ∀ f ∈ fs, f.length < 2 ^ 31)
    (hlt2 : ∀ f ∈ stored enc fs, f.length < 2 ^ 31) (pre rest : Bytes) :
    readData enc ((stored enc fs).map List.length) pre.length (pre ++ ((stored enc fs).flatten ++ rest))
      = .ok (fs.map List.length, fs.flatten) := by
  match enc, h with
  | .plain, _ => simp only [readData, stored]; rw [readPlain_ok fs hlt, bind_ok]
  | .strip hdr true, h =>
    show readData (.strip hdr true) ((stripped hdr fs).map List.length) pre.length (pre ++ ((stripped hdr fs).flatten ++ rest)) = _
    unfold readData
    simp only
    rw [stripped_sizes hdr fs h.2 hlt, bufSize_ok _ (by
      intro n hn
      obtain ⟨f, hf, rfl⟩ := List.mem_map.1 hn
      exact hlt f hf), if_neg (by omega), List.drop_left' rfl, readStrip_ok hdr fs h.2 hlt, bind_ok]
  | .zlib d i true, h =>
    simp only [readData, stored] at *
    rw [readPlain_ok (fs.map d) hlt2, bind_ok, readZlib_ok d i (h rfl).1 fs hlt]
    intro f hf
    exact hlt2 _ (List.mem_map_of_mem hf)
  | .zlib d i false, _ => simp only [readData, stored]; rw [readPlain_ok fs hlt, bind_ok]

/-- The block after reading. -/
def blkOf (simple : Bool) (h : Head) (fs : List Bytes) : Blk :=
  ⟨{ h with key := simple && h.key, discard := simple && h.discard }, fs.map List.length, fs.flatten⟩

/-- Header values a block can hold. -/
def HeadOk (h : Head) : Prop := h.track < 0x4000 ∧ -32768 ≤ h.time ∧ h.time < 32768

/-- The bytes of a block, with a lace head of any length, are read back as the block. -/
theorem readBlock_bytes (simple : Bool) (enc : Enc) (h : Head) (fs : List Bytes) (hh : HeadOk h)
    (he : EncOk enc fs) (hlt : ∀ f ∈ fs, f.length < 2 ^ 31)
    (hl : LaceOk h.lacing ((stored enc fs).map List.length)) (rest : Bytes)
    (hne : h.lacing ≠ .none ∨ (stored enc fs).flatten ++ rest ≠ [] ∨ 0x80 ≤ h.track) :
    ∃ hd, renderHead simple h = some hd ∧ hd.length = headSize h ∧
      readBlock simple enc
        (hd ++ laceHead h.lacing (fs.map (frameSize enc)) ++ (stored enc fs).flatten ++ rest)
        (hd ++ laceHead h.lacing (fs.map (frameSize enc)) ++ (stored enc fs).flatten).length
      = .ok (blkOf simple h fs) := by
  rw [frameSizes_eq enc fs he]
  generalize hns : (stored enc fs).map List.length = ns at *
  have hsum : (stored enc fs).flatten.length = ns.sum := by rw [flatten_length, hns]
  have htail : laceHead h.lacing (ints ns) ++ (stored enc fs).flatten ++ rest ≠ [] ∨ 0x80 ≤ h.track := by
    rcases hne with h1 | h2 | h3
    · left
      cases hlac : h.lacing <;> simp_all [laceHead]
    · left
      intro hx
      apply h2
      simp only [List.append_assoc, List.append_eq_nil_iff] at hx ⊢
      exact hx.2
    · right; exact h3
  obtain ⟨hd, e1, e2, e3⟩ := parseHead_renderHead simple h hh.1 hh.2.1 hh.2.2
    (laceHead h.lacing (ints ns) ++ (stored enc fs).flatten ++ rest) htail
  refine ⟨hd, e1, e2, ?_⟩
  have ea : hd ++ laceHead h.lacing (ints ns) ++ (stored enc fs).flatten ++ rest
      = hd ++ (laceHead h.lacing (ints ns) ++ (stored enc fs).flatten ++ rest) := by simp [List.append_assoc]
  have eb : hd ++ (laceHead h.lacing (ints ns) ++ (stored enc fs).flatten ++ rest)
      = hd ++ laceHead h.lacing (ints ns) ++ ((stored enc fs).flatten ++ rest) := by simp [List.append_assoc]
  unfold readBlock
  rw [ea, e3]
  simp only
  have el : (hd ++ laceHead h.lacing (ints ns) ++ (stored enc fs).flatten).length
      = hd.length + (laceHead h.lacing (ints ns)).length + ns.sum := by
    simp only [List.length_append, hsum]
  rw [el, eb, ← e2, parseSizes_ok h.lacing ns hl hd _, bind_ok]
  simp only
  have hl2 : ∀ f ∈ stored enc fs, f.length < 2 ^ 31 := by
    intro f hf
    exact hl.lt f.length (by rw [← hns]; exact List.mem_map_of_mem hf)
  have := readData_ok enc fs he hlt hl2 (hd ++ laceHead h.lacing (ints ns)) rest
  rw [hns, List.length_append] at this
  rw [this, bind_ok]
  rfl

/-- The bytes of a block of packed frames are read back as the block of the frames. -/
theorem readBlock_packed (simple : Bool) (deflate : Bytes → Bytes) (inflate : Bytes → Option Bytes) (h : Head) (fs ps : List Bytes) (hh : HeadOk h)
    (hinv : List.Forall₂ (fun f p => inflate p = some f) fs ps) (hlt : ∀ f ∈ fs, f.length < 2 ^ 31)
    (hl : LaceOk h.lacing (ps.map List.length)) (rest : Bytes) (hne : h.lacing ≠ .none ∨ ps.flatten ++ rest ≠ [] ∨ 0x80 ≤ h.track) :
    ∃ hd, renderHead simple h = some hd ∧
      readBlock simple (.zlib deflate inflate true) (hd ++ laceHead h.lacing (ints (ps.map List.length)) ++ ps.flatten ++ rest)
        (hd ++ laceHead h.lacing (ints (ps.map List.length)) ++ ps.flatten).length
      = .ok (blkOf simple h fs) := by
  generalize hns : ps.map List.length = ns at *
  have hsum : ps.flatten.length = ns.sum := by rw [flatten_length, hns]
  have htail : laceHead h.lacing (ints ns) ++ ps.flatten ++ rest ≠ [] ∨ 0x80 ≤ h.track := by
    rcases hne with h1 | h2 | h3
    · left
      cases hlac : h.lacing <;> simp_all [laceHead]
    · left
      intro hx
      apply h2
      simp only [List.append_assoc, List.append_eq_nil_iff] at hx ⊢
      exact hx.2
    · right; exact h3
  obtain ⟨hd, e1, e2, e3⟩ := parseHead_renderHead simple h hh.1 hh.2.1 hh.2.2
    (laceHead h.lacing (ints ns) ++ ps.flatten ++ rest) htail
  refine ⟨hd, e1, ?_⟩
  have ea : hd ++ laceHead h.lacing (ints ns) ++ ps.flatten ++ rest
      = hd ++ (laceHead h.lacing (ints ns) ++ ps.flatten ++ rest) := by simp [List.append_assoc]
  have eb : hd ++ (laceHead h.lacing (ints ns) ++ ps.flatten ++ rest)
      = hd ++ laceHead h.lacing (ints ns) ++ (ps.flatten ++ rest) := by simp [List.append_assoc]
  unfold readBlock
  rw [ea, e3]
  simp only
  have el : (hd ++ laceHead h.lacing (ints ns) ++ ps.flatten).length
      = hd.length + (laceHead h.lacing (ints ns)).length + ns.sum := by
    simp only [List.length_append, hsum]
  rw [el, eb, ← e2, parseSizes_ok h.lacing ns hl hd _, bind_ok]
  simp only
  have hl2 : ∀ p ∈ ps, p.length < 2 ^ 31 := by
    intro f hf
    exact hl.lt f.length (by rw [← hns]; exact List.mem_map_of_mem hf)
  have hr := readPlain_ok ps hl2 (hd ++ laceHead h.lacing (ints ns)) rest
  rw [hns, List.length_append] at hr
  simp only [readData]
  rw [hr, bind_ok]
  have hz := readZlib_packed inflate fs ps hinv hlt hl2
  rw [hns] at hz
  rw [hz, bind_ok]
  rfl

end Verif.Mkv
