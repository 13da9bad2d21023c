import Verif.Ebml.EltLemmas
/-!
Property theorems C20-C22: Void elements and announced sizes of element trees.
-/
set_option linter.unusedSimpArgs false
namespace Verif.Ebml
open Verif.EbmlDoc

/-- Number of bytes an outcome of rendering wrote. -/
def Res.bytes : Res → Option Nat
  | .ok out => some out.length
  | _ => none

/-- Full statement of C20: when `EBML_VoidSetFullSize` reports success, the Void is written in
exactly the requested number of bytes. -/
def VoidExact : Prop :=
  ∀ (env : Env) (d : Bool) (n : Nat), (voidSetFullSize newVoid n).2 = true →
    (render env d 1 (.leaf (voidSetFullSize newVoid n).1 none .void)).bytes = some n

/-- The requests for which the size field gets shorter once the head is subtracted. -/
def VoidBoundary (n : Nat) : Prop :=
  ∃ k, 1 ≤ k ∧ k ≤ 4 ∧ 2 ^ (7 * k) - 1 ≤ n ∧ n ≤ 2 ^ (7 * k) + k

/-- C20, what holds: success is reported exactly from 2 bytes on; the Void then takes the requested
size, except for the boundary requests (127-129, 16383-16386, ...), where it takes one byte less. -/
theorem C20_void_full_size_partial (env : Env) (d : Bool) (n : Nat) :
    ((voidSetFullSize newVoid n).2 = true ↔ 2 ≤ n) ∧
    (2 ≤ n → ¬ VoidBoundary n →
      (render env d 1 (.leaf (voidSetFullSize newVoid n).1 none .void)).bytes = some n) ∧
    (2 ≤ n → VoidBoundary n →
      (render env d 1 (.leaf (voidSetFullSize newVoid n).1 none .void)).bytes = some (n - 1)) := by
  have hbd : VoidBoundary n ↔ (127 ≤ n ∧ n ≤ 129) ∨ (16383 ≤ n ∧ n ≤ 16386) ∨ (2097151 ≤ n ∧ n ≤ 2097155) ∨
      (268435455 ≤ n ∧ n ≤ 268435460) := by
    constructor
    · rintro ⟨k, h1, h2, h3, h4⟩
      have : k = 1 ∨ k = 2 ∨ k = 3 ∨ k = 4 := by omega
      rcases this with e | e | e | e <;> subst e <;> simp at h3 h4 <;> omega
    · rintro (h | h | h | h)
      · exact ⟨1, by omega, by omega, by simp; omega⟩
      · exact ⟨2, by omega, by omega, by simp; omega⟩
      · exact ⟨3, by omega, by omega, by simp; omega⟩
      · exact ⟨4, by omega, by omega, by simp; omega⟩
  have hok : (voidSetFullSize newVoid n).2 = true ↔ 2 ≤ n := by
    simp only [voidSetFullSize, codedSizeLength, Bool.not_true, Bool.false_eq_true, if_false, decide_eq_true_eq]
    (repeat' split) <;> omega
  have key : 2 ≤ n → (render env d 1 (.leaf (voidSetFullSize newVoid n).1 none .void)).bytes =
      some (fullSizeBase (voidSetFullSize newVoid n).1).toNat := by
    intro h2
    have hge : 0 ≤ (voidSetFullSize newVoid n).1.dataSize := by
      have := hok.2 h2
      simpa [voidSetFullSize] using this
    have hco : Coherent env d (.leaf (voidSetFullSize newVoid n).1 none .void) := by
      simp only [Coherent, LeafReady, LeafSettled]
      exact ⟨rfl, (by decide : 0xEC < 2 ^ 32), Nat.zero_le _, rfl, hge, fun _ => trivial⟩
    rw [render_eq env d 1 _ (Nat.le_refl _) (by simp [isDefault]) hco, Res.bytes,
      fullSize_leaf env d _ none .void (by decide : (0xEC : Nat) < 2 ^ 32) rfl
        (by simp only [leafPayload, List.length_replicate]; omega), Int.toNat_natCast]
  refine ⟨hok, ?_, ?_⟩ <;> intro h2 hb <;> rw [hbd] at hb <;> rw [key h2] <;>
    simp only [voidSetFullSize, newVoid, fullSizeBase, show idLength 0xEC = 1 from by decide, codedSizeLength,
      Bool.not_true, Bool.false_eq_true, if_false, ne_eq, not_true_eq_false, false_and] <;>
    (repeat' split) <;> congr 1 <;> omega

/-- C20 is false: a Void asked to fill 128 bytes fills 127. -/
theorem C20_void_full_size_counterexample : ¬ VoidExact := by
  intro h
  let env : Env := ⟨fun _ => 0, fun _ => 0, fun _ _ => false, true, 0⟩
  have h1 := h env true 128 (by decide)
  have h2 := (C20_void_full_size_partial env true 128).2.2 (by decide)
    ⟨1, by decide, by decide, by decide, by decide⟩
  rw [h2] at h1
  exact absurd h1 (by decide)

example : ¬ VoidBoundary 5000 := by
  rintro ⟨k, h1, h2, h3, h4⟩
  have : k = 1 ∨ k = 2 ∨ k = 3 ∨ k = 4 := by omega
  rcases this with e | e | e | e <;> subst e <;> simp at h3 h4

/-- Where a reader of the file finds the next element, counted from the start of a filler head:
ID byte, size field, payload; `none` if the head is not readable or announces an unknown size. -/
def fillerSpan (head : Bytes) : Option Nat :=
  let r := readCodedSize head.tail
  if r.len = 0 ∨ r.value = r.unknown then none else some (1 + r.len + r.value)

/-- Full statement of C21: when the replacement succeeds, replacement and filler span the Void. -/
def ReplaceKeepsLayout : Prop :=
  ∀ voidFull replFull : Nat, ∀ filler, voidReplaceWith voidFull replFull = some filler →
    match filler with
    | none => voidFull = replFull
    | some f => fillerSpan (renderHead f) = some (voidFull - replFull)

theorem codedSizeLength_fits (k : Nat) (h : k < 34359738367) : k < 2 ^ (7 * codedSizeLength k 0 true) - 1 := by
  simp only [codedSizeLength, Bool.not_true, Bool.false_eq_true, if_false]
  (repeat' split) <;> simp <;> omega

theorem codedSizeLength_mono (k m : Nat) (h : k ≤ m) : codedSizeLength k 0 true ≤ codedSizeLength m 0 true := by
  simp only [codedSizeLength, Bool.not_true, Bool.false_eq_true, if_false]
  (repeat' split) <;> omega

theorem codedSizeLength_le_self (k : Nat) (h : 1 ≤ k) : codedSizeLength k 0 true ≤ k := by
  simp only [codedSizeLength, Bool.not_true, Bool.false_eq_true, if_false]
  (repeat' split) <;> omega

theorem codedSizeLength_add_two (k : Nat) (h : 3 ≤ k) : codedSizeLength k 0 true + 2 ≤ k := by
  simp only [codedSizeLength, Bool.not_true, Bool.false_eq_true, if_false]
  (repeat' split) <;> omega

theorem codedSizeLength_forced (k : Nat) (c : Nat) (h : codedSizeLength k 0 true ≤ c) : codedSizeLength k c true = c := by
  revert h
  simp only [codedSizeLength, Bool.not_true, Bool.false_eq_true, if_false]
  (repeat' split) <;> omega

theorem voidReplaceWith_gap (r g : Nat) (hg : 2 < g) (hg5 : g < 34359738367) :
    ∃ f, voidReplaceWith ((r + g : Nat) : Int) r = some (some f) ∧
        f.id = 0xEC ∧ f.finite = true ∧ f.sizeLength ≤ 8 ∧ ∃ n : Nat, f.dataSize = n ∧
        n < 2 ^ (7 * codedSizeLength n f.sizeLength true) - 1 ∧
        1 + codedSizeLength n f.sizeLength true + n = g - codedSizeLength (g : Nat) 0 true := by
  have hv : ((r + g : Nat) : Int) - (r : Nat) = (g : Int) := by omega
  have h1 : ¬ (((r + g : Nat) : Int) < (r : Nat)) := by omega
  have h2 : ¬ ((g : Int) = 1) := by omega
  have h3 : (g : Int) > 1 := by omega
  have hid : idLength 0xEC = 1 := by decide
  have hc1 := codedSizeLength_add_two g hg
  have hr := codedSizeLength_range g 0 (by omega) true
  obtain ⟨cg, hcg⟩ : ∃ c, codedSizeLength g 0 true = c := ⟨_, rfl⟩
  obtain ⟨m, hm⟩ : ∃ m : Nat, m = g - 1 - cg := ⟨_, rfl⟩
  rw [hcg] at hc1 hr
  have hm' : (g : Int) - 1 - cg = m := by omega
  have hm1 : 1 ≤ m := by omega
  have hc2 := codedSizeLength_le_self m hm1
  have hr2 := codedSizeLength_range m 0 (by omega) true
  obtain ⟨k, hk⟩ : ∃ k : Nat, k = m - codedSizeLength m 0 true := ⟨_, rfl⟩
  have hk' : (m : Int) - codedSizeLength m 0 true = k := by omega
  have hle := codedSizeLength_mono k m (by omega)
  have hfit := codedSizeLength_fits k (by clear hle hr hr2 hc1 hc2 h1 h2 h3; omega)
  have hforced := codedSizeLength_forced k _ hle
  have hrepl : voidReplaceWith ((r + g : Nat) : Int) r = some (some (if codedSizeLength k 0 true = codedSizeLength m 0 true
      then ⟨0xEC, k, 0, true, false, true⟩ else ⟨0xEC, k, codedSizeLength m 0 true, true, false, true⟩)) := by
    simp only [voidReplaceWith, hv, voidSetFullSize, newVoid, fullSizeBase, hid, hcg, hm', hk']
    rw [if_neg h1, if_neg h2, if_pos h3]
    by_cases hne : codedSizeLength k 0 true = codedSizeLength m 0 true
    · rw [if_pos hne, if_neg (by omega)]
    · rw [if_neg hne, if_pos (by omega)]
      have hsl : (codedSizeLength k 0 true : Int) -
          (((k : Int) + (1 : Nat) + codedSizeLength k 0 true - k) - ((m : Int) + (1 : Nat) + codedSizeLength m 0 true - m)) =
          codedSizeLength m 0 true := by omega
      rw [hsl, Int.toNat_natCast]
  refine ⟨_, hrepl, ?_⟩
  clear hrepl
  by_cases hne : codedSizeLength k 0 true = codedSizeLength m 0 true
  · rw [if_pos hne]
    exact ⟨rfl, rfl, Nat.zero_le _, k, rfl, hfit, by simp only; omega⟩
  · rw [if_neg hne]
    refine ⟨rfl, rfl, ?_, k, rfl, ?_, ?_⟩
    · simp only; omega
    · simp only [hforced]
      have : 2 ^ (7 * codedSizeLength k 0 true) ≤ 2 ^ (7 * codedSizeLength m 0 true) :=
        Nat.pow_le_pow_right (by decide) (by omega)
      exact Nat.lt_of_lt_of_le hfit (Nat.sub_le_sub_right this 1)
    · simp only [hforced]; omega

/-- C21, what holds. The replacement is refused exactly when it is too long or leaves one byte;
there is no filler exactly when it fits exactly; otherwise the filler spans the gap minus the
length of the gap's own size field, so the layout is broken for every non-zero gap. For a gap of
two bytes the filler announces an unknown size. -/
theorem C21_void_replace_partial (v r : Nat) :
    (voidReplaceWith v r = none ↔ v < r ∨ v = r + 1) ∧
    (voidReplaceWith v r = some none ↔ v = r) ∧
    (r + 2 < v → v < 2 ^ 35 - 1 → ∃ f, voidReplaceWith v r = some (some f) ∧
      fillerSpan (renderHead f) = some (v - r - codedSizeLength (v - r : Nat) 0 true) ∧
      v - r - codedSizeLength (v - r : Nat) 0 true < v - r) ∧
    (v = r + 2 → ∃ f, voidReplaceWith v r = some (some f) ∧ renderHead f = [0xEC, 0xFF] ∧
      fillerSpan (renderHead f) = none) := by
  refine ⟨?_, ?_, ?_, ?_⟩
  · simp only [voidReplaceWith]; (repeat' split) <;> simp <;> omega
  · simp only [voidReplaceWith]; (repeat' split) <;> simp <;> omega
  · intro hgap hmax
    obtain ⟨g, rfl⟩ : ∃ g, v = r + g := ⟨v - r, by omega⟩
    have hg : 2 < g := by omega
    have hg5 : g < 34359738367 := by simp only [Nat.reducePow, Nat.reduceSub] at hmax; omega
    clear hgap hmax
    simp only [Nat.add_sub_cancel_left]
    obtain ⟨f, hf, hid, hfin, hsl, hd⟩ := voidReplaceWith_gap r g hg hg5
    obtain ⟨n, hn, hfit, hsum⟩ := hd
    refine ⟨f, hf, ?_, ?_⟩
    · have hr := codedSizeLength_range (n : Int) f.sizeLength hsl true
      have h2 := C02_forced_size_roundtrip _ hr.1 hr.2 n hfit []
      rw [List.append_nil] at h2
      have hh : renderHead f = 0xEC :: codedValue n (codedSizeLength n f.sizeLength true) true := by
        rw [renderHead, hid, hfin, hn]; rfl
      rw [hh, fillerSpan, List.tail_cons, h2.2.2]
      simp only
      rw [if_neg (by omega), hsum]
    · have := codedSizeLength_pos g 0 true
      omega
  · rintro rfl
    refine ⟨⟨0xEC, -1, 0, true, false, true⟩, ?_, by decide, by decide⟩
    have hv : ((r + 2 : Nat) : Int) - (r : Nat) = 2 := by omega
    simp only [voidReplaceWith, hv]
    rw [if_neg (by omega)]
    decide

example : ∃ f, voidReplaceWith 400 100 = some (some f) ∧ fillerSpan (renderHead f) = some 298 :=
  ⟨_, rfl, by decide⟩

/-- C21 is false: replacing 50 of 100 bytes leaves a filler of 49. -/
theorem C21_void_replace_counterexample : ¬ ReplaceKeepsLayout := by
  intro h
  obtain ⟨f, hf, hs, _⟩ := (C21_void_replace_partial 100 50).2.2.1 (by decide) (by decide)
  have := h 100 50 (some f) hf
  simp only at this
  rw [hs] at this
  exact absurd this (by decide)

/-- Full statement of C22: after updating the sizes of any tree a caller built with the setters,
the announced size is the number of bytes rendered (here: one master with one child, updated, its
child changed, updated again). -/
def AnnouncedIsWritten : Prop :=
  ∀ (env : Env) (d : Bool) (set : Elt → Elt) (e c : Elt),
    (∃ s, set = setString s) ∨ (∃ s, set = setBinary s) ∨ (∃ v, set = setNumber v) →
    Coherent env d e →
    ∀ b crc, update env d e = .master b crc [c] →
      let e' := update env d (.master b crc [set c])
      (render env d (depth e') e').bytes = some (fullSizeBase e'.base).toNat

/-- The environment of the witnesses. -/
def witnessEnv : Env := ⟨fun _ => 0, fun _ => 0, fun _ _ => false, true, 0⟩

/-- A master with one child. -/
def witnessTree (c : Elt) : Elt := .master ⟨0x1A45DFA3, -1, 0, true, true, true⟩ 0 [c]

/-- C22 is false: changing a string child of an updated master keeps the announced size of the
master (5 bytes of payload announced, 8 written). -/
theorem C22_announced_size_counterexample : ¬ AnnouncedIsWritten := by
  intro h
  have hco : Coherent witnessEnv true (witnessTree (.leaf ⟨0x4282, 2, 0, true, false, true⟩ none (.str (some [97, 98])))) := by
    simp only [witnessTree, Coherent, CoherentList, LeafReady, LeafSettled]
    refine ⟨trivial, by decide, by decide, ⟨fun _ => ⟨trivial, by decide, by decide, trivial, rfl, fun _ => by decide⟩, trivial⟩, ?_⟩
    intro h; simp [needs] at h
  have := h witnessEnv true (setString [97, 98, 99, 100, 101]) _ _ (Or.inl ⟨_, rfl⟩) hco
    ⟨0x1A45DFA3, 5, 0, true, false, true⟩ 0 rfl
  exact absurd this (by decide +kernel)

/-- Second witness: with default values left out, giving a child its default value does not tell
the updated master either. -/
theorem C22_default_value_counterexample : ¬ AnnouncedIsWritten := by
  intro h
  have hco : Coherent witnessEnv false (witnessTree (.leaf ⟨0x4286, 1, 0, true, false, true⟩ (some (.uint 1)) (.uint 2))) := by
    simp only [witnessTree, Coherent, CoherentList, LeafReady, LeafSettled]
    refine ⟨trivial, by decide, by decide, ⟨fun _ => ⟨trivial, by decide, by decide, trivial, trivial, fun _ => by decide⟩, trivial⟩, ?_⟩
    intro h; simp [needs] at h
  have := h witnessEnv false (setNumber (.uint 1)) _ _ (Or.inr (Or.inr ⟨_, rfl⟩)) hco
    ⟨0x1A45DFA3, 4, 0, true, false, true⟩ 0 rfl
  exact absurd this (by decide +kernel)

/-- C22, what holds. For every tree in a coherent state (every size that is not flagged for
recalculation is right), of any depth and width, with or without checksums and default values:
rendering it writes the encoding of the document it stands for, updating first changes neither the
document nor the bytes, and the sizes announced afterwards are exactly those of the bytes. -/
theorem C22_announced_size_partial (env : Env) (d : Bool) (e : Elt) (h : Coherent env d e)
    (hw : (!d && isDefault env e) = false) (fuel : Nat) (hf : depth e ≤ fuel) :
    render env d fuel e = .ok (encode (toDoc env d e)) ∧
    render env d fuel (update env d e) = .ok (encode (toDoc env d e)) ∧
    (update env d e).base.dataSize = (payload (toDoc env d e)).length ∧
    fullSizeBase (update env d e).base = (encode (toDoc env d e)).length ∧
    Coherent env d (update env d e) := by
  have hu := updated env d e hw h
  refine ⟨render_eq env d fuel e hf hw h, ?_, hu.data, hu.size, hu.coherent⟩
  rw [← hu.doc]
  exact render_eq env d fuel _ (by rw [hu.depth]; exact hf) (by rw [hu.dflt]; exact hw) hu.coherent

/-- Change the element at a path of child indices. -/
def modifyAt (f : Elt → Elt) : List Nat → Elt → Elt
  | [], e => f e
  | i :: p, .master b crc ch => .master b crc (ch.modify i (modifyAt f p))
  | _ :: _, .leaf b dflt v => .leaf b dflt v

/-- The element at a path. -/
def eltAt : List Nat → Elt → Option Elt
  | [], e => some e
  | i :: p, .master _ _ ch => (ch[i]?).bind (eltAt p)
  | _ :: _, .leaf _ _ _ => none

theorem coherentList_iff (env : Env) (es : List Elt) : CoherentList env true es ↔ ∀ c ∈ es, Coherent env true c := by
  induction es with
  | nil => simp [CoherentList]
  | cons e es ih => simp [CoherentList, ih]

theorem needsList_iff (env : Env) (d : Bool) (es : List Elt) : needsList env d es = true ↔ ∃ c ∈ es, needs env d c = true := by
  induction es with
  | nil => simp [needsList]
  | cons e es ih => simp [needsList, ih]

theorem modifyAt_coherent (env : Env) (f : Elt → Elt) (p : List Nat) (e x : Elt) (hx : eltAt p e = some x)
    (hc : Coherent env true e) (hf : Coherent env true x → Coherent env true (f x) ∧ needs env true (f x) = true) :
    Coherent env true (modifyAt f p e) ∧ needs env true (modifyAt f p e) = true := by
  induction p generalizing e with
  | nil => simp only [eltAt, Option.some.injEq] at hx; subst hx; exact hf hc
  | cons i p ih =>
    cases e with
    | leaf b dflt v => simp [eltAt] at hx
    | master b crc ch =>
      simp only [eltAt, Option.bind_eq_some_iff] at hx
      obtain ⟨c, hci, hcx⟩ := hx
      simp only [Coherent, coherentList_iff] at hc
      obtain ⟨h1, h2, h3, h4, h5⟩ := hc
      have hcm : c ∈ ch := List.mem_of_getElem? hci
      obtain ⟨k1, k2⟩ := ih c hcx (h4 c hcm)
      have hmem : ∀ y ∈ ch.modify i (modifyAt f p), y ∈ ch ∨ y = modifyAt f p c := by
        intro y hy
        obtain ⟨j, hj⟩ := List.getElem?_of_mem hy
        rw [List.getElem?_modify] at hj
        by_cases hij : i = j
        · subst hij; simp [hci] at hj; exact Or.inr hj.symm
        · simp [hij] at hj; exact Or.inl (List.mem_of_getElem? hj)
      have hin : modifyAt f p c ∈ ch.modify i (modifyAt f p) := by
        apply List.mem_of_getElem? (i := i)
        simp [List.getElem?_modify, hci]
      have hneed : needs env true (.master b crc (ch.modify i (modifyAt f p))) = true := by
        simp only [needs, Bool.or_eq_true, needsList_iff]
        exact Or.inr ⟨_, hin, k2⟩
      refine ⟨?_, hneed⟩
      simp only [modifyAt, Coherent, coherentList_iff]
      refine ⟨h1, h2, h3, ?_, ?_⟩
      · intro y hy
        rcases hmem y hy with h | h
        · exact h4 y h
        · rw [h]; exact k1
      · intro hn; rw [hneed] at hn; cases hn

/-- Same class of number. -/
def sameNumber : Leaf → Leaf → Bool
  | .uint _, .uint _ => true
  | .sint _, .sint _ => true
  | .date _, .date _ => true
  | .float _, .float _ => true
  | _, _ => false

/-- The elements a caller creates are coherent, and (when default values are written too) setting
a number anywhere in the tree or appending a coherent child to any master of the tree keeps the tree
coherent, hence under `C22_announced_size_partial`. -/
theorem C22_operations_partial (env : Env) :
    (∀ (id sl : Nat) (dflt : Option Leaf) (v : Leaf), id < 2 ^ 32 → sl ≤ 8 → sameNumber v v = true →
      Coherent env true (setNumber v (.leaf ⟨id, -1, sl, false, true, true⟩ dflt v))) ∧
    (∀ (id sl : Nat) (dflt : Option Leaf) (s : Bytes), id < 2 ^ 32 → sl ≤ 8 → (0 : UInt8) ∉ s →
      Coherent env true (setString s (.leaf ⟨id, -1, sl, false, true, true⟩ dflt (.str none)))) ∧
    (∀ (id sl : Nat) (dflt : Option Leaf) (s : Bytes), id < 2 ^ 32 → sl ≤ 8 →
      Coherent env true (setBinary s (.leaf ⟨id, -1, sl, false, true, true⟩ dflt (.bin [])))) ∧
    (∀ (id sl crc : Nat) (fin : Bool), id < 2 ^ 32 → sl ≤ 8 →
      Coherent env true (.master ⟨id, -1, sl, true, true, fin⟩ crc [])) ∧
    (∀ (e : Elt) (p : List Nat) (b : Base) (dflt : Option Leaf) (v w : Leaf), Coherent env true e →
      eltAt p e = some (.leaf b dflt v) → sameNumber v w = true →
      Coherent env true (modifyAt (setNumber w) p e)) ∧
    (∀ (e c : Elt) (p : List Nat) (b : Base) (crc : Nat) (ch : List Elt), Coherent env true e →
      eltAt p e = some (.master b crc ch) → Coherent env true c →
      Coherent env true (modifyAt (appendChild c) p e)) := by
  refine ⟨?_, ?_, ?_, ?_, ?_, ?_⟩
  · intro id sl dflt v hid hsl hv
    cases v <;> simp [sameNumber] at hv <;> simp [setNumber, Coherent, LeafReady, hsl] <;>
      simpa using hid
  · intro id sl dflt s hid hsl hs
    have : cstr s = s := by
      rw [cstr]
      clear hid hsl
      induction s with
      | nil => rfl
      | cons x s ih =>
        rw [List.takeWhile_cons, if_pos (by simp; rintro rfl; exact hs List.mem_cons_self),
          ih (fun h => hs (List.mem_cons_of_mem _ h))]
    simp only [setString, Coherent, LeafReady, LeafSettled, this]
    exact ⟨trivial, hid, hsl, trivial, rfl, fun _ => trivial⟩
  · intro id sl dflt s hid hsl
    simp only [setBinary, Coherent, LeafReady, LeafSettled]
    exact ⟨trivial, hid, hsl, trivial, trivial, fun _ => trivial⟩
  · intro id sl crc fin hid hsl
    simp only [Coherent, CoherentList, needs, Bool.true_or]
    exact ⟨trivial, hid, hsl, trivial, fun h => by cases h⟩
  · intro e p b dflt v w he hp hvw
    refine (modifyAt_coherent env (setNumber w) p e _ hp he ?_).1
    intro hx
    simp only [Coherent] at hx
    obtain ⟨x1, x2, x3, x4, x5, x6⟩ := hx
    have hready : LeafReady { b with valueSet := true, needUpdate := true } w := by
      cases v <;> cases w <;> simp [sameNumber] at hvw <;> simp [LeafReady] at x5 ⊢
      exact x5
    constructor
    · simp only [setNumber, Coherent]
      exact ⟨trivial, x2, x3, x4, hready, fun h => by cases h⟩
    · simp [setNumber, needs]
  · intro e c p b crc ch he hp hc
    refine (modifyAt_coherent env (appendChild c) p e _ hp he ?_).1
    intro hx
    simp only [Coherent, coherentList_iff] at hx
    obtain ⟨x1, x2, x3, x4, x5⟩ := hx
    constructor
    · simp only [appendChild, Coherent, coherentList_iff]
      refine ⟨trivial, x2, x3, ?_, fun h => by simp [needs] at h⟩
      intro y hy
      rcases List.mem_append.1 hy with h | h
      · exact x4 y h
      · simp at h; rw [h]; exact hc
    · simp [appendChild, needs]

/-- A master with a checksum, a number and a nested master of unknown size. -/
example (env : Env) : Coherent env true
    (.master ⟨0x18538067, -1, 8, true, true, true⟩ 1
      [.leaf ⟨0xD7, -1, 0, true, true, true⟩ (some (.uint 1)) (.uint 300),
       .master ⟨0x1F43B675, -1, 0, true, true, false⟩ 0 [.leaf ⟨0x86, 3, 2, true, false, true⟩ none (.str (some [65, 66, 67]))]]) := by
  simp [Coherent, CoherentList, LeafReady, LeafSettled, cstr, needs]

end Verif.Ebml
