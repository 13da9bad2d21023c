import Verif.Mkv.Schema
import Verif.Ebml.MasterContext
set_option linter.unusedSimpArgs false
namespace Verif.Ebml.Master

theorem mkv_row (r : Nat) : (r < mkvTable.length ∧ mkv.ctx r ∈ mkvTable) ∨ (mkvTable.length ≤ r ∧ mkv.ctx r = ⟨0xFF, .dummy, false, []⟩) := by
  by_cases h : r < mkvTable.length
  · left
    refine ⟨h, ?_⟩
    show mkvTable.getD r _ ∈ mkvTable
    rw [List.getD_eq_getElem?_getD, List.getElem?_eq_getElem h]
    exact List.getElem_mem h
  · right
    refine ⟨by omega, ?_⟩
    show mkvTable.getD r _ = _
    rw [List.getD_eq_getElem?_getD, List.getElem?_eq_none (by omega)]
    rfl

theorem mkv_distinct : DistinctIds mkv := by
  intro r
  rcases mkv_row r with ⟨_, h⟩ | ⟨_, h⟩
  · have key : ∀ c ∈ mkvTable, (c.sem.map (fun s => (mkv.ctx s.ref).id)).Nodup := by decide +kernel
    exact key _ h
  · rw [h]; exact List.nodup_nil

/-- How deep mandatory unique children nest, up to `fuel`. -/
def height (S : Schema) : Nat → Nat → Nat
  | 0, _ => 0
  | fuel + 1, r => (S.ctx r).sem.foldr (fun s m => if s.mandatory && s.unique then max m (height S fuel s.ref + 1) else m) 0

/-- The nesting depth of the mandatory unique children in Matroska. -/
def mkvRank (r : Nat) : Nat := height mkv 4 r

theorem mkv_ranked : Ranked mkv mkvRank := by
  intro r
  rcases mkv_row r with ⟨hr, _⟩ | ⟨_, h⟩
  · have key : ∀ r < mkvTable.length, ∀ s ∈ (mkv.ctx r).sem, s.mandatory = true → s.unique = true → mkvRank s.ref < mkvRank r := by
      decide +kernel
    exact key r hr
  · rw [h]; simp

theorem mkvRank_le (r : Nat) : mkvRank r ≤ 2 := by
  rcases mkv_row r with ⟨hr, _⟩ | ⟨_, h⟩
  · have key : ∀ r < mkvTable.length, mkvRank r ≤ 2 := by decide +kernel
    exact key r hr
  · unfold mkvRank height; rw [h]; simp

theorem mkv_plain : PlainMandatory mkv := by
  intro r
  rcases mkv_row r with ⟨_, h⟩ | ⟨_, h⟩
  · have key : ∀ c ∈ mkvTable, ∀ s ∈ c.sem, s.mandatory = true → s.unique = true →
        (mkv.ctx s.ref).cls ≠ .void ∧ (mkv.ctx s.ref).cls ≠ .crc ∧ (mkv.ctx s.ref).cls ≠ .dummy := by decide +kernel
    exact key _ h
  · rw [h]; simp

theorem mkv_ids : (mkvTable.map (·.id)).Nodup := by decide +kernel

end Verif.Ebml.Master
