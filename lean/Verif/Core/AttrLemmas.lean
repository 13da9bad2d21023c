import Verif.Core.Attr
import Verif.Core.StrLemmas
import Verif.Props.NodeData
/-!
Lemmas about attributes (`Verif/Core/Attr.lean`): memory, strings in it and bits.
-/
set_option linter.unusedSimpArgs false
namespace Verif.Attr
open Verif Verif.Core

theorem store_some (mem : Bytes) (i : Nat) (bs : Bytes) (h : i + bs.length ≤ mem.length) :
    ∃ m, store mem i bs = some m ∧ m.length = mem.length ∧ m = mem.take i ++ bs ++ mem.drop (i + bs.length) :=
  ⟨_, by unfold store; rw [if_pos h], by simp; omega, rfl⟩

theorem store_inv (mem : Bytes) (i : Nat) (bs m : Bytes) (h : store mem i bs = some m) :
    i + bs.length ≤ mem.length ∧ m = mem.take i ++ bs ++ mem.drop (i + bs.length) := by
  unfold store at h
  by_cases hc : i + bs.length ≤ mem.length
  · rw [if_pos hc] at h; exact ⟨hc, (Option.some.inj h).symm⟩
  · rw [if_neg hc] at h; cases h

/-- The byte at a place after writing. -/
theorem spliced (mem : Bytes) (i : Nat) (bs : Bytes) (h : i + bs.length ≤ mem.length) (k : Nat) :
    (mem.take i ++ bs ++ mem.drop (i + bs.length))[k]? =
      if i ≤ k ∧ k < i + bs.length then bs[k - i]? else mem[k]? := by
  by_cases h1 : k < i
  · rw [if_neg (by omega), List.append_assoc, List.getElem?_append_left (by simp; omega), List.getElem?_take_of_lt h1]
  · by_cases h2 : k < i + bs.length
    · rw [if_pos ⟨by omega, h2⟩, List.getElem?_append_left (by simp; omega), List.getElem?_append_right (by simp; omega)]
      simp only [List.length_take]
      congr 1
      omega
    · rw [if_neg (by omega), List.getElem?_append_right (by simp; omega), List.getElem?_drop]
      congr 1
      simp
      omega

theorem piece_same (mem : Bytes) (i : Nat) (bs : Bytes) (h : i + bs.length ≤ mem.length) :
    ((mem.take i ++ bs ++ mem.drop (i + bs.length)).drop i).take bs.length = bs := by
  rw [List.append_assoc, List.drop_append_of_le_length (by simp; omega), List.drop_of_length_le (by simp; omega),
    List.nil_append, List.take_left']
  rfl

theorem piece_other (mem : Bytes) (i : Nat) (bs : Bytes) (h : i + bs.length ≤ mem.length) (j n : Nat)
    (hd : j + n ≤ i ∨ i + bs.length ≤ j) :
    ((mem.take i ++ bs ++ mem.drop (i + bs.length)).drop j).take n = (mem.drop j).take n := by
  apply List.ext_getElem?
  intro k
  by_cases hk : k < n
  · rw [List.getElem?_take_of_lt hk, List.getElem?_take_of_lt hk, List.getElem?_drop, List.getElem?_drop, spliced mem i bs h,
      if_neg (by omega)]
  · rw [List.getElem?_take_eq_none (by omega), List.getElem?_take_eq_none (by omega)]

/-- A text that ends within `n` bytes is decided by them. -/
theorem cstr_local (x y : Bytes) : ∀ n : Nat, x.take n = y.take n → (cstr x).length < n → n ≤ x.length →
    cstr x = cstr y := by
  induction x generalizing y with
  | nil =>
    intro n h hl hn
    simp at hn
    omega
  | cons a x ih =>
    intro n h hl hn
    cases n with
    | zero => omega
    | succ n =>
      cases y with
      | nil => simp at h
      | cons b y =>
        simp only [List.take_succ_cons, List.cons.injEq] at h
        obtain ⟨rfl, h⟩ := h
        unfold cstr at hl ih ⊢
        by_cases ha : (a != 0) = true
        · simp only [List.takeWhile_cons, ha, if_true, List.length_cons] at hl ⊢
          rw [ih y n h (by omega) (by simp at hn; omega)]
        · simp only [List.takeWhile_cons, ha]
          rfl

theorem cstr_no0 (d : Bytes) : ∀ x ∈ cstr d, x ≠ 0 := fun x hx => by simpa using cstr_all d x hx

theorem strcmp_zero (a b : Bytes) (ha : ∀ x ∈ a, x ≠ 0) (hb : ∀ x ∈ b, x ≠ 0) : strcmp a b = 0 ↔ a = b := by
  unfold strcmp
  have hne : ∀ x : UInt8, x ≠ 0 → (x.toNat : Int) ≠ 0 := by
    intro x hx he
    apply hx
    apply UInt8.toNat_inj.1
    simpa using he
  rw [cmpInts_zero]
  · constructor
    · intro h
      exact (List.map_inj_right (fun x y hxy => UInt8.toNat_inj.1 (by omega))).1 h
    · rintro rfl; rfl
  · intro x hx
    obtain ⟨c, hc, rfl⟩ := List.mem_map.1 hx
    exact hne c (ha c hc)
  · intro x hx
    obtain ⟨c, hc, rfl⟩ := List.mem_map.1 hx
    exact hne c (hb c hc)

/-- `tcscpy_s` of a text. -/
theorem strcpyS_text (mem : Bytes) (i n : Nat) (s : Bytes) (hn : 0 < n) (hi : i + n ≤ mem.length) (hs : ∀ x ∈ s, x ≠ 0) :
    ∃ m, strcpyS mem i n s = some m ∧ m.length = mem.length ∧ cstr (m.drop i) = s.take (n - 1) ∧
      ∀ j k, (j + k ≤ i ∨ i + n ≤ j) → (m.drop j).take k = (mem.drop j).take k := by
  unfold strcpyS
  rw [if_pos hn]
  simp only
  have ht : (s.take (min s.length (n - 1))) = s.take (n - 1) := by rw [List.take_eq_take_iff]; omega
  have hl : min s.length (n - 1) = (s.take (n - 1)).length := by simp; omega
  rw [ht, hl, store_two mem i (s.take (n - 1)) 0 (by simp; omega)]
  have hlen : i + (s.take (n - 1) ++ [0]).length ≤ mem.length := by simp; omega
  have he : i + (s.take (n - 1)).length + 1 = i + (s.take (n - 1) ++ [0]).length := by simp; omega
  rw [he]
  refine ⟨_, rfl, by simp; omega, ?_, ?_⟩
  · rw [List.append_assoc, List.drop_append_of_le_length (by simp; omega), List.drop_of_length_le (by simp; omega),
      List.nil_append, List.append_assoc, List.singleton_append]
    unfold cstr
    exact takeWhile_stop _ _ _ _ (fun x hx => by simpa using hs x (List.mem_of_mem_take hx)) (by simp)
  · intro j k hd
    exact piece_other mem i _ hlen j k (by simp; simp at hlen; omega)

theorem word_write (mem : Bytes) (off : Nat) (v : BitVec 32) (h : off + 4 ≤ mem.length) :
    ∃ m, store mem off (leBytes 4 v.toNat) = some m ∧ m.length = mem.length ∧ word m off = v ∧
      ∀ j k, (j + k ≤ off ∨ off + 4 ≤ j) → (m.drop j).take k = (mem.drop j).take k := by
  obtain ⟨m, hm, hl, he⟩ := store_some mem off (leBytes 4 v.toNat) (by simp; omega)
  refine ⟨m, hm, hl, ?_, ?_⟩
  · unfold word
    have := piece_same mem off (leBytes 4 v.toNat) (by simp; omega)
    rw [leBytes_length] at this
    rw [he, leBytes_length, this, leNat_leBytes, Nat.mod_eq_of_lt (by have := v.isLt; omega)]
    simp
  · intro j k hd
    rw [he]
    exact piece_other mem off _ (by simp; omega) j k (by simp; omega)

end Verif.Attr
