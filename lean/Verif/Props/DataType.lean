import Verif.Core.DataType
import Verif.Core.StrLemmas
/-!
Property C251: names of data types and units.
-/
namespace Verif.DataType
open Verif Verif.Core

/-- The types that have a name: their number in nodebase.h:19-59 and the name. -/
def types : List (Nat × String) :=
  [(0, "none"), (1, "boolean"), (2, "integer"), (3, "fraction"), (4, "string"), (5, "rectangle"), (6, "point"), (7, "rgb"),
   (8, "fourcc"), (9, "filepos"), (10, "node"), (12, "packet"), (15, "pointer"), (18, "integer_8"), (19, "integer_16"),
   (20, "integer_32"), (21, "integer_64"), (23, "node_ref"), (25, "pin"), (26, "event"), (28, "point_16"), (29, "rect_16"),
   (33, "datetime"), (34, "db_no"), (35, "guid"), (36, "fix_16"), (41, "size")]

/-- The units: the constant in nodebase.h:84-101 and the name. -/
def units : List (Nat × String) :=
  [(0x01000000, "kbyte"), (0x02000000, "second"), (0x03000000, "mhz"), (0x04000000, "xcoord"), (0x05000000, "ycoord"),
   (0x06000000, "byterate"), (0x07000000, "folder"), (0x08000000, "number"), (0x09000000, "fix16"), (0x0A000000, "ip"),
   (0x0B000000, "coord"), (0x0C000000, "password"), (0x0D000000, "upper"), (0x0E000000, "checklist"), (0x0F000000, "percent"),
   (0x10000000, "hex"), (0x11000000, "task")]

/-- The same text but for the case of ASCII letters. -/
def Same (s : Bytes) (n : String) : Prop := uppers s = uppers (lit n)

instance (s : Bytes) (n : String) : Decidable (Same s n) := inferInstanceAs (Decidable (_ = _))

/-- The number that goes with a text in a list, if any does. -/
def Named (l : List (Nat × String)) (s : Bytes) (v : Nat) : Prop := ∃ n, (v, n) ∈ l ∧ Same s n

/-! ### Helpers -/

/-- The first place with the text. -/
def firstIn (s : Bytes) : List (Option Bytes) → Nat → Option Nat
  | [], _ => none
  | none :: r, j => firstIn s r (j + 1)
  | some n :: r, j => if isame s n then some j else firstIn s r (j + 1)

/-- The places with a text. -/
def places : List (Option Bytes) → Nat → List (Nat × Bytes)
  | [], _ => []
  | none :: r, j => places r (j + 1)
  | some n :: r, j => (j, n) :: places r (j + 1)

theorem first_places (s : Bytes) (l : List (Option Bytes)) (j : Nat) :
    firstIn s l j = ((places l j).find? fun x => isame s x.2).map (·.1) := by
  induction l generalizing j with
  | nil => rfl
  | cons a r ih =>
    cases a with
    | none => exact ih _
    | some n =>
      simp only [firstIn, places, List.find?_cons]
      cases isame s n
      · simp only [Bool.false_eq_true, if_false]; exact ih _
      · rfl

theorem unit_first (f : Bytes) (i : Nat) (k j : Nat) (h : j + k = 32) (hj : 1 ≤ j) :
    unitLoop f i (k + 1) j = some (match firstIn f (paramFormat.drop j) j with | none => i | some u => i ||| (u <<< 24)) := by
  induction k generalizing j with
  | zero =>
    have : j = 32 := by omega
    subst this
    rfl
  | succ k ih =>
    have hm : ∀ j, j < 32 → 1 ≤ j → (j <<< 24) &&& 0x1F000000 ≠ 0 := by decide +kernel
    have hl : paramFormat.length = 32 := rfl
    have hlt : j < paramFormat.length := by omega
    rw [unitLoop, if_neg (hm j (by omega) hj), List.drop_eq_getElem_cons hlt, List.getElem?_eq_getElem hlt]
    cases paramFormat[j] with
    | none => exact ih (j + 1) (by omega) (by omega)
    | some n =>
      simp only [firstIn]
      cases isame f n
      · simp only [Bool.false_eq_true, if_false]; exact ih (j + 1) (by omega) (by omega)
      · rfl

/-- What is added for a unit. -/
def withUnit (i : Nat) : Option Bytes → Nat
  | none => i
  | some [] => i
  | some f => match firstIn f (paramFormat.drop 1) 1 with | none => i | some u => i ||| (u <<< 24)

theorem type_first (s : Bytes) (f : Option Bytes) (k i : Nat) (h : i + k = 42) :
    typeLoop s f (k + 1) i = some (match firstIn s (paramName.drop i) i with | none => 0 | some t => withUnit t f) := by
  induction k generalizing i with
  | zero =>
    have : i = 42 := by omega
    subst this
    rfl
  | succ k ih =>
    have hl : paramName.length = 42 := rfl
    have hlt : i < paramName.length := by omega
    unfold typeLoop
    rw [if_pos (by omega), List.drop_eq_getElem_cons hlt, List.getElem?_eq_getElem hlt]
    cases paramName[i] with
    | none => exact ih (i + 1) (by omega)
    | some n =>
      simp only [firstIn]
      cases isame s n
      · simp only [Bool.false_eq_true, if_false]; exact ih (i + 1) (by omega)
      · simp only [if_true]
        match f with
        | none => rfl
        | some [] => rfl
        | some (c :: r) => exact unit_first (c :: r) i 31 1 rfl (by omega)

theorem find_named (l : List (Nat × String)) (hd : l.Pairwise fun a b => uppers (lit a.2) ≠ uppers (lit b.2)) (s : Bytes) (v : Nat)
    (h : Named l s v) : ((l.map fun x => (x.1, lit x.2)).find? fun x => isame s x.2).map (·.1) = some v := by
  obtain ⟨n, hm, hs⟩ := h
  induction l with
  | nil => cases hm
  | cons a r ih =>
    rw [List.pairwise_cons] at hd
    simp only [List.map_cons, List.find?_cons]
    rcases List.mem_cons.1 hm with he | hm
    · subst he
      rw [(isame_eq s (lit n)).2 hs]; rfl
    · have : isame s (lit a.2) = false := by
        cases hc : isame s (lit a.2)
        · rfl
        · exact absurd (((isame_eq s (lit a.2)).1 hc).symm.trans hs) (hd.1 _ hm)
      rw [this]
      exact ih hd.2 hm

theorem find_unnamed (l : List (Nat × String)) (s : Bytes) (h : ∀ v, ¬ Named l s v) :
    ((l.map fun x => (x.1, lit x.2)).find? fun x => isame s x.2).map (·.1) = none := by
  rw [Option.map_eq_none_iff, List.find?_eq_none]
  intro x hx hc
  obtain ⟨y, hy, rfl⟩ := List.mem_map.1 hx
  exact h y.1 ⟨y.2, hy, (isame_eq s (lit y.2)).1 hc⟩

theorem types_places : places (paramName.drop 0) 0 = types.map fun x => (x.1, lit x.2) := by decide +kernel

theorem units_places : (places (paramFormat.drop 1) 1).map (fun x => (x.1 <<< 24, x.2)) = units.map fun x => (x.1, lit x.2) := by
  decide +kernel

theorem types_distinct : types.Pairwise fun a b => uppers (lit a.2) ≠ uppers (lit b.2) := by decide +kernel

theorem units_distinct : units.Pairwise fun a b => uppers (lit a.2) ≠ uppers (lit b.2) := by decide +kernel

theorem first_unit (f : Bytes) : (firstIn f (paramFormat.drop 1) 1).map (· <<< 24) =
    ((units.map fun x => (x.1, lit x.2)).find? fun x => isame f x.2).map (·.1) := by
  rw [first_places, ← units_places, List.find?_map, Option.map_map, Option.map_map]
  rfl

theorem find_eq (s : Bytes) (f : Option Bytes) : findDataType s f =
    some (match ((types.map fun x => (x.1, lit x.2)).find? fun x => isame s x.2).map (·.1) with | none => 0 | some t => withUnit t f) := by
  unfold findDataType
  rw [type_first s f 42 0 rfl, first_places, types_places]

theorem or_add : ∀ t ∈ types, ∀ u ∈ units, t.1 ||| u.1 = t.1 + u.1 := by decide +kernel

/-! ### The property -/

/-- The name of a type, in any case and without a unit, gives the number of the type. -/
theorem C251_type (s : Bytes) (t : Nat) (h : Named types s t) :
    findDataType s none = some t ∧ findDataType s (some []) = some t := by
  constructor <;> rw [find_eq, find_named types types_distinct s t h] <;> rfl

/-- With the name of a unit it gives the number of the type and the constant of the unit. -/
theorem C251_unit (s f : Bytes) (t u : Nat) (h : Named types s t) (hu : Named units f u) :
    findDataType s (some f) = some (t + u) := by
  rw [find_eq, find_named types types_distinct s t h]
  have hf := first_unit f
  rw [find_named units units_distinct f u hu] at hf
  obtain ⟨j, hj, e⟩ := Option.map_eq_some_iff.1 hf
  have ha : t ||| u = t + u := by
    obtain ⟨n, hn, _⟩ := h
    obtain ⟨m, hm, _⟩ := hu
    exact or_add _ hn _ hm
  cases f with
  | nil =>
    obtain ⟨m, hm, hs⟩ := hu
    have : ∀ x ∈ units, ¬ Same [] x.2 := by decide +kernel
    exact absurd hs (this _ hm)
  | cons c r =>
    simp only [withUnit, hj]
    rw [e, ha]

/-- A unit that is not known is ignored. -/
theorem C251_unknown_unit (s f : Bytes) (t : Nat) (h : Named types s t) (hu : ∀ u, ¬ Named units f u) :
    findDataType s (some f) = some t := by
  rw [find_eq, find_named types types_distinct s t h]
  have hf := first_unit f
  rw [find_unnamed units f hu, Option.map_eq_none_iff] at hf
  cases f with
  | nil => rfl
  | cons c r => simp only [withUnit, hf]

/-- A type that is not known gives 0, whatever the unit. -/
theorem C251_unknown_type (s : Bytes) (f : Option Bytes) (h : ∀ t, ¬ Named types s t) : findDataType s f = some 0 := by
  rw [find_eq, find_unnamed types s h]

/-- Every data type whose name is asked for has the name that the search accepts: type and unit come back. -/
theorem C251_back (d : Nat) (n m : Bytes) (hn : typeName d = some (some n)) (hm : unitName d = some (some m)) :
    findDataType n (some m) = some (d % 64 + d / 2 ^ 24 % 32 * 2 ^ 24) := by
  have hd : d &&& 0x3F = d % 64 := Nat.and_two_pow_sub_one_eq_mod d 6
  have hu : (d &&& 0x1F000000) >>> 24 = d / 2 ^ 24 % 32 := by
    rw [Nat.shiftRight_and_distrib, Nat.shiftRight_eq_div_pow]
    exact Nat.and_two_pow_sub_one_eq_mod _ 5
  unfold typeName at hn
  unfold unitName at hm
  rw [hd] at hn
  rw [hu] at hm
  generalize d % 64 = t at *
  generalize d / 2 ^ 24 % 32 = u at *
  have ht : ∀ t, t < 42 → ∀ n ∈ (paramName[t]?).join, Named types n t := by
    intro t h n hn
    have : ∀ t, t < 42 → ∀ n ∈ (paramName[t]?).join, ∃ x ∈ types, x.1 = t ∧ Same n x.2 := by decide +kernel
    obtain ⟨x, hx, rfl, hs⟩ := this t h n hn
    exact ⟨x.2, hx, hs⟩
  have hv : ∀ u, u < 32 → ∀ n ∈ (paramFormat[u]?).join, Named units n (u * 2 ^ 24) := by
    intro u h n hn
    have : ∀ u, u < 32 → ∀ n ∈ (paramFormat[u]?).join, ∃ x ∈ units, x.1 = u * 2 ^ 24 ∧ Same n x.2 := by decide +kernel
    obtain ⟨x, hx, e, hs⟩ := this u h n hn
    exact ⟨x.2, by rw [← e]; exact hx, hs⟩
  have hl1 : t < 42 := (List.getElem?_eq_some_iff.1 hn).1
  have hl2 : u < 32 := (List.getElem?_eq_some_iff.1 hm).1
  exact C251_unit n m t _ (ht t hl1 n (by rw [hn]; rfl)) (hv u hl2 m (by rw [hm]; rfl))

/-- Asking for the name of a unit never reads outside of the table; for the name of a type only numbers below 42 are safe. -/
theorem C251_tables_partial (d : Nat) : (unitName d).isSome = true ∧ ((typeName d).isSome = true ↔ d % 64 < 42) := by
  have hd : d &&& 0x3F = d % 64 := Nat.and_two_pow_sub_one_eq_mod d 6
  have hu : (d &&& 0x1F000000) >>> 24 = d / 2 ^ 24 % 32 := by
    rw [Nat.shiftRight_and_distrib, Nat.shiftRight_eq_div_pow]
    exact Nat.and_two_pow_sub_one_eq_mod _ 5
  unfold unitName typeName
  rw [hd, hu]
  constructor
  · have : d / 2 ^ 24 % 32 < paramFormat.length := Nat.mod_lt _ (by decide)
    rw [List.getElem?_eq_getElem this]; rfl
  · rw [Option.isSome_iff_ne_none, ne_eq, List.getElem?_eq_none_iff]
    show ¬ 42 ≤ d % 64 ↔ d % 64 < 42
    omega

/-- The mask of types allows 64 numbers, the table has 42: the name of type 42 is read behind its end. -/
theorem C251_type_name_counterexample : ∃ d, d < 64 ∧ typeName d = none := ⟨42, by decide, by decide +kernel⟩

example : findDataType (lit "Integer_16") (some (lit "HEX")) = some 0x10000013 ∧ findDataType (lit "integer") (some (lit "furlong")) = some 2 ∧
    findDataType (lit "tick") none = some 0 ∧ typeName 0x10000013 = some (some (lit "integer_16")) ∧
    unitName 0x10000013 = some (some (lit "hex")) := by decide +kernel

example : Named types (lit "RGB") 7 ∧ Named units (lit "mHz") 0x03000000 := ⟨⟨"rgb", by decide +kernel, by decide +kernel⟩, ⟨"mhz", by decide +kernel, by decide +kernel⟩⟩

end Verif.DataType
