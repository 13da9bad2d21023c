import Verif.Ebml.Copy
import Verif.Ebml.EltLemmas
/-!
C114: the copy of an element is written as the element is.
-/
set_option linter.unusedSimpArgs false
namespace Verif.Ebml
open Verif.EbmlDoc

mutual
/-- Specification: no element of unknown size; every string has a buffer and a size of at least its length. -/
def Copyable : Elt → Prop
  | .leaf b _ v => b.finite = true ∧
      (∀ buf, v = .str buf → ∃ s, buf = some s ∧ ((cstr s).length : Int) ≤ b.dataSize)
  | .master b _ ch => b.finite = true ∧ CopyableList ch
def CopyableList : List Elt → Prop
  | [] => True
  | e :: es => Copyable e ∧ CopyableList es
end

theorem cstr_pad (s : Bytes) (n : Nat) : cstr (cstr s ++ List.replicate n 0) = cstr s := by
  unfold cstr
  rw [List.takeWhile_append]
  have h : ∀ l : Bytes, (l.takeWhile (· ≠ 0)).takeWhile (· ≠ 0) = l.takeWhile (· ≠ 0) := by
    intro l
    induction l with
    | nil => rfl
    | cons a l ih =>
      by_cases ha : a = 0
      · simp [ha]
      · simp only [List.takeWhile_cons, ha, ne_eq, not_false_eq_true, decide_true, if_true] at ih ⊢
        rw [ih]
  rw [h, if_pos rfl]
  have : (List.replicate n (0 : UInt8)).takeWhile (· ≠ 0) = [] := by
    cases n <;> simp [List.replicate_succ]
  rw [this, List.append_nil]

/-- What a copy has in common with its original. -/
structure SameAs (env : Env) (d : Bool) (e e' : Elt) : Prop where
  dflt : isDefault env e' = isDefault env e
  doc : toDoc env d e' = toDoc env d e
  deep : depth e' = depth e
  coh : Coherent env d e → Coherent env d e'
  id : e'.base.id = e.base.id

theorem leaf_same (env : Env) (d : Bool) (b : Base) (dflt : Option Leaf) (v : Leaf) (hf : b.finite = true) :
    SameAs env d (.leaf b dflt v) (.leaf { b with finite := true } dflt v) := by
  have : ({ b with finite := true } : Base) = b := by cases b; simp_all
  rw [this]
  exact ⟨rfl, rfl, rfl, fun h => h, rfl⟩

theorem str_same (env : Env) (d : Bool) (b : Base) (dflt : Option Leaf) (s : Bytes) (n : Nat) (hf : b.finite = true) :
    SameAs env d (.leaf b dflt (.str (some s)))
      (.leaf { b with finite := true } dflt (.str (some (cstr s ++ List.replicate n 0)))) := by
  have hb : ({ b with finite := true } : Base) = b := by cases b; simp_all
  rw [hb]
  refine ⟨?_, ?_, rfl, ?_, rfl⟩
  · cases dflt with
    | none => rfl
    | some x =>
      cases x with
      | str o => cases o <;> simp only [isDefault, cstr_pad]
      | _ => rfl
  · simp only [toDoc, leafPayload, cstr_pad]
  · intro h
    simp only [Coherent, LeafReady, LeafSettled, cstr_pad] at h ⊢
    exact h

mutual
theorem copy_same (env : Env) (d : Bool) : ∀ e : Elt, Copyable e → ∃ e', copy e = some e' ∧ SameAs env d e e'
  | .leaf b dflt v, h => by
    simp only [Copyable] at h
    cases v with
    | str buf =>
      obtain ⟨s, rfl, hs⟩ := h.2 buf rfl
      refine ⟨_, ?_, str_same env d b dflt s (b.dataSize.toNat - (cstr s).length) h.1⟩
      simp only [copy, copyStr]
      rw [if_neg (by omega)]
    | uint v => exact ⟨_, rfl, leaf_same env d b dflt _ h.1⟩
    | sint v => exact ⟨_, rfl, leaf_same env d b dflt _ h.1⟩
    | date v => exact ⟨_, rfl, leaf_same env d b dflt _ h.1⟩
    | float v => exact ⟨_, rfl, leaf_same env d b dflt _ h.1⟩
    | bin v => exact ⟨_, rfl, leaf_same env d b dflt _ h.1⟩
    | void => exact ⟨_, rfl, leaf_same env d b dflt _ h.1⟩
  | .master b crc ch, h => by
    simp only [Copyable] at h
    obtain ⟨ch', hc, h1, h2, h3, h4⟩ := copyList_same env d ch h.2
    have hb : ({ b with finite := true } : Base) = b := by cases b; simp_all
    cases ch' with
    | nil =>
      have hnil : ch = [] := by cases ch with
        | nil => rfl
        | cons => simp at h4
      subst hnil
      refine ⟨.master b crc [], by simp only [copy, copyList, hb], rfl, rfl, rfl, fun h => h, rfl⟩
    | cons e' es' =>
      refine ⟨_, by simp only [copy, hc]; rfl, ?_, ?_, ?_, ?_, ?_⟩
      · simp only [isDefault]
      · simp only [toDoc, h1, h.1]
      · simp only [depth, h2]
      · intro hco
        simp only [Coherent] at hco ⊢
        refine ⟨trivial, hco.2.1, hco.2.2.1, h3 hco.2.2.2.1, fun hn => ?_⟩
        simp [needs] at hn
      · rfl
theorem copyList_same (env : Env) (d : Bool) : ∀ es : List Elt, CopyableList es →
    ∃ es', copyList es = some es' ∧ toDocList env d es' = toDocList env d es ∧ depthList es' = depthList es ∧
      (CoherentList env d es → CoherentList env d es') ∧ es'.length = es.length
  | [], _ => ⟨[], rfl, rfl, rfl, fun h => h, rfl⟩
  | e :: es, h => by
    simp only [CopyableList] at h
    obtain ⟨e', he, hs⟩ := copy_same env d e h.1
    obtain ⟨es', hes, h1, h2, h3, h4⟩ := copyList_same env d es h.2
    refine ⟨e' :: es', by simp only [copyList, he, hes], ?_, ?_, ?_, by simp [h4]⟩
    · simp only [toDocList, hs.dflt, hs.doc, h1]
    · simp only [depthList, hs.deep, h2]
    · intro hc
      simp only [CoherentList] at hc ⊢
      refine ⟨fun hd => hs.coh (hc.1 (by rw [← hs.dflt]; exact hd)), h3 hc.2⟩
end

/-- **C114.** The copy of an element, of any depth and width, exists and is written as the same bytes as the original,
if no size is unknown and strings have a value. -/
theorem C114_copy_renders_alike_partial (env : Env) (d : Bool) (e : Elt) (h : Copyable e) (hc : Coherent env d e)
    (hs : (!d && isDefault env e) = false) :
    ∃ e', copy e = some e' ∧ ∃ bytes, ∀ fuel, depth e ≤ fuel →
      render env d fuel e = .ok bytes ∧ render env d fuel e' = .ok bytes := by
  obtain ⟨e', he, hsame⟩ := copy_same env d e h
  refine ⟨e', he, encode (toDoc env d e), fun fuel hf => ⟨render_eq env d fuel e hf hs hc, ?_⟩⟩
  rw [← hsame.doc]
  exact render_eq env d fuel e' (by rw [hsame.deep]; exact hf) (by rw [hsame.dflt]; exact hs) (hsame.coh hc)

def copyEnv : Env := ⟨fun _ => 0, fun _ => 0, fun _ _ => false, true, 0⟩

/-- A master with a checksum, a string padded with zeros and an inner master. -/
def copyTree : Elt :=
  .master ⟨0x1549A966, -1, 0, true, true, true⟩ 1
    [.leaf ⟨0x4D80, 4, 0, true, true, true⟩ none (.str (some [0x61, 0x62, 0, 0])),
     .master ⟨0x6924, -1, 0, true, true, true⟩ 0 [.leaf ⟨0x69A5, 3, 0, true, false, true⟩ none (.bin [1, 2, 3])]]

example : Copyable copyTree ∧ Coherent copyEnv false copyTree ∧
    (∃ e', copy copyTree = some e' ∧ render copyEnv false 3 e' = render copyEnv false 3 copyTree) := by
  have h1 : Copyable copyTree := by
    simp [copyTree, Copyable, CopyableList, cstr]
  have h2 : Coherent copyEnv false copyTree := by
    simp [copyTree, Coherent, CoherentList, LeafReady, LeafSettled, needs, needsList, isDefault]
  refine ⟨h1, h2, ?_⟩
  obtain ⟨e', he, b, hb⟩ := C114_copy_renders_alike_partial copyEnv false copyTree h1 h2 rfl
  exact ⟨e', he, by rw [(hb 3 (by decide)).1, (hb 3 (by decide)).2]⟩

/-- The property without conditions. -/
def CopiesAlike : Prop :=
  ∀ (env : Env) (d : Bool) (e : Elt), Coherent env d e → (!d && isDefault env e) = false →
    ∃ e', copy e = some e' ∧ ∀ fuel, depth e ≤ fuel → render env d fuel e' = render env d fuel e

/-- A live Segment (unknown size) is copied as one of a known size. -/
theorem C114_unknown_size_counterexample : ¬ CopiesAlike := by
  intro h
  have hc : Coherent copyEnv false (.master ⟨0x18538067, 0, 0, true, false, false⟩ 0 []) := by
    simp [Coherent, CoherentList, needs, needsList, payload, toDocList]
    rw [encodeList]; rfl
  obtain ⟨e', he, hr⟩ := h copyEnv false _ hc rfl
  have : e' = .master ⟨0x18538067, 0, 0, true, false, true⟩ 0 [] := by
    simpa [copy, copyList] using he.symm
  subst this
  have := hr 2 (by decide)
  revert this
  decide +kernel

/-- An element holding a child string that was never set (as creation without default values leaves it, here with a default) cannot
be copied: `strncpy` gets a NULL pointer. -/
theorem C114_unset_string_counterexample : ¬ CopiesAlike := by
  intro h
  have hc : Coherent copyEnv false (.master ⟨0xAE, 0, 0, true, false, true⟩ 0
      [.leaf ⟨0x22B59C, -1, 0, false, true, true⟩ (some (.str (some [0x65, 0x6E, 0x67]))) (.str none)]) := by
    simp [Coherent, CoherentList, needs, needsList, payload, toDocList, isDefault]
    rw [encodeList]; rfl
  obtain ⟨e', he, _⟩ := h copyEnv false _ hc rfl
  simp [copy, copyList, copyStr] at he

mutual
/-- Specification: every string has a buffer and a size of at least its length. -/
def StringsHeld : Elt → Prop
  | .leaf b _ v => ∀ buf, v = .str buf → ∃ s, buf = some s ∧ ((cstr s).length : Int) ≤ b.dataSize
  | .master _ _ ch => StringsHeldList ch
def StringsHeldList : List Elt → Prop
  | [] => True
  | e :: es => StringsHeld e ∧ StringsHeldList es
end

mutual
/-- Specification: no element of unknown size. -/
def AllFinite : Elt → Prop
  | .leaf b _ _ => b.finite = true
  | .master b _ ch => b.finite = true ∧ AllFiniteList ch
def AllFiniteList : List Elt → Prop
  | [] => True
  | e :: es => AllFinite e ∧ AllFiniteList es
end

mutual
theorem copy_isSome : ∀ e : Elt, (copy e).isSome ↔ StringsHeld e
  | .leaf b dflt v => by
    cases v with
    | str buf =>
      cases buf with
      | none => simp [copy, copyStr, StringsHeld]
      | some s =>
        simp only [copy, copyStr, StringsHeld, Leaf.str.injEq]
        by_cases h : b.dataSize < (cstr s).length
        · rw [if_pos h]
          simp only [Option.isSome_none, Bool.false_eq_true, false_iff]
          intro hh
          obtain ⟨s', h1, h2⟩ := hh _ rfl
          cases h1
          omega
        · rw [if_neg h]
          simp only [Option.isSome_some, true_iff]
          rintro buf rfl
          exact ⟨s, rfl, by omega⟩
    | uint v => simp [copy, StringsHeld]
    | sint v => simp [copy, StringsHeld]
    | date v => simp [copy, StringsHeld]
    | float v => simp [copy, StringsHeld]
    | bin v => simp [copy, StringsHeld]
    | void => simp [copy, StringsHeld]
  | .master b crc ch => by
    have ih := copyList_isSome ch
    simp only [copy, StringsHeld]
    rw [← ih]
    cases copyList ch with
    | none => simp
    | some l => cases l <;> simp
theorem copyList_isSome : ∀ es : List Elt, (copyList es).isSome ↔ StringsHeldList es
  | [] => by simp [copyList, StringsHeldList]
  | e :: es => by
    have h1 := copy_isSome e
    have h2 := copyList_isSome es
    simp only [copyList, StringsHeldList]
    rw [← h1, ← h2]
    cases copy e <;> cases copyList es <;> simp
end

mutual
theorem copy_finite : ∀ e e' : Elt, copy e = some e' → AllFinite e'
  | .leaf b dflt v, e', h => by
    cases v with
    | str buf =>
      simp only [copy] at h
      cases hs : copyStr b.dataSize buf with
      | none => rw [hs] at h; cases h
      | some s => rw [hs] at h; cases h; simp [AllFinite]
    | uint v => cases h; simp [AllFinite]
    | sint v => cases h; simp [AllFinite]
    | date v => cases h; simp [AllFinite]
    | float v => cases h; simp [AllFinite]
    | bin v => cases h; simp [AllFinite]
    | void => cases h; simp [AllFinite]
  | .master b crc ch, e', h => by
    simp only [copy] at h
    cases hs : copyList ch with
    | none => rw [hs] at h; cases h
    | some l =>
      rw [hs] at h
      have hl := copyList_finite ch l hs
      cases l with
      | nil => cases h; simp [AllFinite, AllFiniteList]
      | cons x xs => cases h; simp only [AllFinite]; exact ⟨trivial, hl⟩
theorem copyList_finite : ∀ es es' : List Elt, copyList es = some es' → AllFiniteList es'
  | [], es', h => by cases h; simp [AllFiniteList]
  | e :: es, es', h => by
    simp only [copyList] at h
    cases h1 : copy e with
    | none => rw [h1] at h; cases h
    | some x =>
      cases h2 : copyList es with
      | none => rw [h1, h2] at h; cases h
      | some xs =>
        rw [h1, h2] at h; cases h
        simp only [AllFiniteList]
        exact ⟨copy_finite e x h1, copyList_finite es xs h2⟩
end

/-- Which elements can be copied at all: exactly those whose strings all have a buffer and a size of at least their
length; and no copy has an element of unknown size in it, whatever the original has. -/
theorem C114_copy_exact (e : Elt) :
    ((copy e).isSome ↔ StringsHeld e) ∧ ∀ e', copy e = some e' → AllFinite e' :=
  ⟨copy_isSome e, copy_finite e⟩

/-- A live Segment with a Cluster, both of unknown size. -/
example : ∃ e', copy (.master ⟨0x18538067, -1, 0, true, true, false⟩ 0
    [.master ⟨0x1F43B675, -1, 0, true, true, false⟩ 0 [.leaf ⟨0xE7, 1, 0, true, false, true⟩ none (.uint 5)]]) = some e' ∧
    AllFinite e' :=
  ⟨_, rfl, by simp [AllFinite, AllFiniteList]⟩

end Verif.Ebml
