import Verif.Core.AttrEnum
import Verif.Props.AttrNames
/-!
Property C243: the list of the attributes of a node.
-/
namespace Verif.Names
open Verif Verif.Core

/-- The entry gives the attribute a type. -/
def declares (id : Nat) (e : Entry) : Bool :=
  match e with
  | ⟨i, .type _⟩ => i == id
  | _ => false

/-- The attributes in the order in which the classes declare their types, the oldest ancestor first. -/
def declared (chain : List (List Entry)) : List Nat :=
  chain.reverse.flatten.filterMap fun e => match e with | ⟨i, .type _⟩ => some i | _ => none

/-! ### Helpers -/

theorem enumTable_eq (t : List Entry) :
    enumTable t = t.filterMap fun e => match e with | ⟨i, .type _⟩ => some i | _ => none := by
  induction t with
  | nil => rfl
  | cons e t ih =>
    obtain ⟨i, info⟩ := e
    cases info <;> simp only [enumTable, List.filterMap_cons, ih]

theorem metaEnum_eq (chain : List (List Entry)) : metaEnum chain = declared chain := by
  induction chain with
  | nil => rfl
  | cons t r ih =>
    rw [metaEnum, ih, enumTable_eq]
    simp [declared]

theorem defsOf_eq (chain : List (List Entry)) (l : List Nat) : defsOf chain l = l.filterMap (dataDef chain) := by
  induction l with
  | nil => rfl
  | cons i r ih =>
    rw [defsOf, List.filterMap_cons, ih]
    cases dataDef chain i <;> rfl

theorem typeIn_some (id f : Nat) (l : List Entry) (h : typeIn id l = some f) :
    ∃ pre post, l = pre ++ ⟨id, .type f⟩ :: post ∧ ∀ g, (⟨id, .type g⟩ : Entry) ∉ pre := by
  induction l with
  | nil => cases h
  | cons e l ih =>
    obtain ⟨i, info⟩ := e
    cases info with
    | type g =>
      rw [typeIn] at h
      by_cases hi : i = id
      · rw [if_pos hi] at h
        cases h
        exact ⟨[], l, by rw [hi]; rfl, fun _ hm => by cases hm⟩
      · rw [if_neg hi] at h
        obtain ⟨pre, post, e, hp⟩ := ih h
        refine ⟨⟨i, .type g⟩ :: pre, post, by rw [e]; rfl, fun k hm => ?_⟩
        rcases List.mem_cons.1 hm with he | hm
        · cases he; exact hi rfl
        · exact hp k hm
    | name s =>
      obtain ⟨pre, post, e, hp⟩ := ih h
      refine ⟨⟨i, .name s⟩ :: pre, post, by rw [e]; rfl, fun k hm => ?_⟩
      rcases List.mem_cons.1 hm with he | hm
      · cases he
      · exact hp k hm
    | other =>
      obtain ⟨pre, post, e, hp⟩ := ih h
      refine ⟨⟨i, .other⟩ :: pre, post, by rw [e]; rfl, fun k hm => ?_⟩
      rcases List.mem_cons.1 hm with he | hm
      · cases he
      · exact hp k hm

theorem dataDef_iff (chain : List (List Entry)) (id : Nat) (d : Nat × Nat) :
    dataDef chain id = some d ↔ d.1 = id ∧ Typed chain id d.2 ∧ d.2 ≠ 0 := by
  constructor
  · intro h
    unfold dataDef at h
    rw [paramType_flatten] at h
    split at h
    · rename_i f hf
      split at h
      · cases h
      · rename_i h0
        cases h
        exact ⟨rfl, typeIn_some id f _ hf, h0⟩
    · cases h
  · rintro ⟨rfl, hf, h0⟩
    exact dataDef_typed hf h0

theorem typed_declared {chain : List (List Entry)} {id f : Nat} (h : Typed chain id f) : id ∈ declared chain := by
  obtain ⟨pre, post, e, _⟩ := h
  have hm : (⟨id, .type f⟩ : Entry) ∈ chain.flatten := by rw [e]; simp
  unfold declared
  refine List.mem_filterMap.2 ⟨⟨id, .type f⟩, ?_, rfl⟩
  obtain ⟨t, ht, hm⟩ := List.mem_flatten.1 hm
  exact List.mem_flatten.2 ⟨t, List.mem_reverse.2 ht, hm⟩

theorem count_declared (chain : List (List Entry)) (id : Nat) : (declared chain).count id = chain.flatten.countP (declares id) := by
  have one : ∀ l : List Entry, (l.filterMap fun e => match e with | ⟨i, .type _⟩ => some i | _ => none).count id =
      l.countP (declares id) := by
    intro l
    induction l with
    | nil => rfl
    | cons e l ih =>
      obtain ⟨i, info⟩ := e
      cases info with
      | type g => simp only [List.filterMap_cons, List.count_cons, List.countP_cons, ih, declares]; rfl
      | name s => simp only [List.filterMap_cons, List.countP_cons, ih, declares]; rfl
      | other => simp only [List.filterMap_cons, List.countP_cons, ih, declares]; rfl
  unfold declared
  rw [one]
  apply List.Perm.countP_eq
  exact (List.reverse_perm chain).flatten

theorem count_defs (chain : List (List Entry)) (id f : Nat) (hd : dataDef chain id = some (id, f)) (l : List Nat) :
    (l.filterMap (dataDef chain)).count (id, f) = l.count id := by
  induction l with
  | nil => rfl
  | cons i l ih =>
    rw [List.filterMap_cons, List.count_cons, ← ih]
    by_cases hi : i = id
    · rw [hi, hd]
      simp
    · cases h : dataDef chain i with
      | none => simp [hi]
      | some d =>
        have := ((dataDef_iff chain i d).1 h).1
        have hne : d ≠ (id, f) := by rintro rfl; exact hi this.symm
        simp [hi, hne]

/-! ### C243 -/

/-- C243: the list holds an attribute with a type exactly if this is its first type in the tables, counted from the class
of the node, and is not 0. -/
theorem C243_listed (chain : List (List Entry)) (id f : Nat) : (id, f) ∈ enumDef chain ↔ Typed chain id f ∧ f ≠ 0 := by
  unfold enumDef
  rw [defsOf_eq, metaEnum_eq]
  constructor
  · intro h
    obtain ⟨i, _, hi⟩ := List.mem_filterMap.1 h
    obtain ⟨rfl, h⟩ := (dataDef_iff chain i _).1 hi
    exact h
  · rintro ⟨hf, h0⟩
    exact List.mem_filterMap.2 ⟨id, typed_declared hf, dataDef_typed hf h0⟩

/-- C243: each is listed as often as its type is declared. -/
theorem C243_times (chain : List (List Entry)) (id f : Nat) (hf : Typed chain id f) (h0 : f ≠ 0) :
    (enumDef chain).count (id, f) = chain.flatten.countP (declares id) := by
  unfold enumDef
  rw [defsOf_eq, metaEnum_eq, count_defs chain id f (dataDef_typed hf h0), count_declared]

/-- C243: without types declared twice no attribute is listed twice. -/
theorem C243_once_partial (chain : List (List Entry)) (h : ∀ id, chain.flatten.countP (declares id) ≤ 1) :
    ((enumDef chain).map Prod.fst).Nodup := by
  have hd : (declared chain).Nodup := by
    rw [List.nodup_iff_count]
    intro id
    rw [count_declared]
    exact h id
  unfold enumDef
  rw [defsOf_eq, metaEnum_eq]
  have key : ∀ l : List Nat, ((l.filterMap (dataDef chain)).map Prod.fst).Sublist l := by
    intro l
    induction l with
    | nil => exact .slnil
    | cons i l ih =>
      rw [List.filterMap_cons]
      cases hi : dataDef chain i with
      | none => exact ih.cons _
      | some d =>
        rw [List.map_cons, ((dataDef_iff chain i d).1 hi).1]
        exact ih.cons_cons _
  exact (key _).nodup hd

/-- C243: the order is the one of the declarations, those of ancestors first. -/
theorem C243_order (chain : List (List Entry)) : ∃ keep : Nat → Bool,
    (∀ id, keep id = true ↔ ∃ f, Typed chain id f ∧ f ≠ 0) ∧ (enumDef chain).map Prod.fst = (declared chain).filter keep := by
  refine ⟨fun id => (dataDef chain id).isSome, fun id => ?_, ?_⟩
  · rw [Option.isSome_iff_exists]
    constructor
    · rintro ⟨d, hd⟩
      exact ⟨d.2, ((dataDef_iff chain id d).1 hd).2⟩
    · rintro ⟨f, hf, h0⟩
      exact ⟨_, dataDef_typed hf h0⟩
  · unfold enumDef
    rw [defsOf_eq, metaEnum_eq]
    generalize declared chain = l
    induction l with
    | nil => rfl
    | cons i l ih =>
      rw [List.filterMap_cons]
      cases hi : dataDef chain i with
      | none => rw [List.filter_cons, if_neg (by simp [hi])]; exact ih
      | some d => rw [List.filter_cons, if_pos (by simp [hi]), List.map_cons, ih, ((dataDef_iff chain i d).1 hi).1]

/-- A class that redeclares the type of attribute 1 of its ancestor, turns off 2 and adds 4. -/
def derivedChain : List (List Entry) :=
  [[⟨1, .type 7⟩, ⟨2, .type 0⟩, ⟨4, .type 5⟩], [⟨1, .type 3⟩, ⟨1, .name [0x41]⟩, ⟨2, .type 3⟩, ⟨3, .type 9⟩]]

/-- C243 with "once" fails: an attribute whose type a class declares anew is listed twice, both times with the new type. -/
theorem C243_twice_counterexample : enumDef derivedChain = [(1, 7), (3, 9), (1, 7), (4, 5)] := by decide

example : Typed derivedChain 1 7 ∧ ¬ (2, 3) ∈ enumDef derivedChain ∧ declared derivedChain = [1, 2, 3, 1, 2, 4] :=
  ⟨⟨[], _, rfl, fun _ h => by cases h⟩, by decide, by decide⟩

example : ∀ id, [[(⟨4, .type 5⟩ : Entry)], [⟨1, .type 3⟩, ⟨3, .type 9⟩]].flatten.countP (declares id) ≤ 1 := by
  intro id
  simp only [List.flatten_cons, List.flatten_nil, List.append_nil, List.cons_append, List.nil_append, List.countP_cons,
    List.countP_nil, declares, beq_iff_eq]
  split <;> split <;> split <;> omega

end Verif.Names
