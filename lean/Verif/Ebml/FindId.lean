import Verif.Ebml.VintLemmas
/-!
Model of `EBML_FindNextId` (`/repo/libebml2/ebmlmain.c:301-377`), the probe for the first element of
a stream. The stream is the list of bytes left. Creating and validating the element is left out: it
does not touch the buffers. `filepos_t` values are those of `readCodedSize`.
-/
namespace Verif.Ebml.Probe

/-- Outcome: NULL, a write outside one of the two buffers, or the ID bytes, `PossibleSizeLength`,
the decoded size and the bytes left. -/
inductive Out where
  | null
  | oob
  | found (id : Bytes) (psl : Nat) (size : Option CodedSize) (rest : Bytes)
  | fuelOut
deriving DecidableEq, Repr

/-- Outcome of the ID loop. -/
inductive IdRes where
  | null | oob
  | found (id : Bytes) (rest : Bytes)
  | eof (id : Bytes)

/-- The ID loop, ebmlmain.c:320-335. `id` holds the `PossibleID_Length` bytes written, `readSize`
is `ReadSize`, `mask` is `BitMask`. -/
def idLoop (mask : UInt8) (readSize : Nat) (id : Bytes) : Bytes → IdRes
  | [] => .eof id
  | b :: rest =>
    if id.length ≥ 4 then .oob
    else if readSize + 1 = id.length then .null
    else if id.length + 1 > 4 then .null
    else
      match id ++ [b] with
      | [] => .null
      | b0 :: _ => if b0 &&& mask ≠ 0 then .found (id ++ [b]) rest else idLoop (mask >>> 1) (readSize + 1) (id ++ [b]) rest

/-- Outcome of the size loop. -/
inductive SizeRes where
  | null | oob
  | done (sz : Bytes) (psl : Nat) (size : Option CodedSize) (rest : Bytes)

/-- The size loop, ebmlmain.c:339-349. `sz` holds the bytes written, `psl` is
`PossibleSizeLength`, also counted up by a failing read. -/
def sizeLoop (sz : Bytes) (psl : Nat) : Bytes → SizeRes
  | rest =>
    if psl ≥ 8 then .null
    else
      match rest with
      | [] => .done sz (psl + 1) none []
      | b :: rest =>
        if (readCodedSize (sz ++ [b])).len ≠ 0 then .done (sz ++ [b]) (psl + 1) (some (readCodedSize (sz ++ [b]))) rest
        else sizeLoop (sz ++ [b]) (psl + 1) rest

/-- The outer loop, ebmlmain.c:315-350. `PossibleID_Length` keeps its value between passes. A pass
over an exhausted stream in the middle of the size reads nothing, so `sz` only matters in the first. -/
def outer : (fuel : Nat) → (id sz : Bytes) → (psl : Nat) → (rest : Bytes) → Out
  | 0, _, _, _, _ => .fuelOut
  | fuel + 1, id, sz, psl, rest =>
    match idLoop 0x80 0 id rest with
    | .null => .null
    | .oob => .oob
    | .found id rest =>
      match sizeLoop sz psl rest with
      | .null => .null
      | .oob => .oob
      | .done _ psl size rest => .found id psl size rest
    | .eof id =>
      match sizeLoop sz psl [] with
      | .null => .null
      | .oob => .oob
      | .done sz psl _ rest => outer fuel id sz psl rest

/-- The probe on a stream. -/
def probe (data : Bytes) : Out := outer 10 [] [] 0 data

theorem sizeLoop_no_oob (rest : Bytes) : ∀ sz psl, sizeLoop sz psl rest ≠ .oob := by
  induction rest with
  | nil => intro sz psl; rw [sizeLoop]; split <;> simp
  | cons b rest ih =>
    intro sz psl
    rw [sizeLoop]
    split
    · simp
    · split
      · simp
      · exact ih _ _

/-- Passes over an exhausted stream end with NULL. -/
theorem outer_eof (fuel : Nat) : ∀ (id sz : Bytes) (psl : Nat), 8 < fuel + psl → outer fuel id sz psl [] ≠ .oob ∧
    (1 ≤ fuel → outer fuel id sz psl [] = .null) := by
  induction fuel with
  | zero => intro id sz psl h; exact ⟨by simp [outer], by omega⟩
  | succ fuel ih =>
    intro id sz psl h
    simp only [outer, idLoop]
    rw [sizeLoop]
    by_cases h8 : psl ≥ 8
    · simp [h8]
    · rw [if_neg h8]
      simp only
      have := ih id sz (psl + 1) (by omega)
      exact ⟨this.1, fun _ => this.2 (by omega)⟩

theorem mask_facts (b : UInt8) :
    (16 ≤ b.toNat ↔ (b &&& 0x80 ≠ 0 ∨ b &&& ((0x80 : UInt8) >>> 1) ≠ 0 ∨ b &&& ((0x80 : UInt8) >>> 1 >>> 1) ≠ 0 ∨
      b &&& ((0x80 : UInt8) >>> 1 >>> 1 >>> 1) ≠ 0)) := by
  have : ∀ b : UInt8, decide (16 ≤ b.toNat ↔ (b &&& 0x80 ≠ 0 ∨ b &&& ((0x80 : UInt8) >>> 1) ≠ 0 ∨
      b &&& ((0x80 : UInt8) >>> 1 >>> 1) ≠ 0 ∨ b &&& ((0x80 : UInt8) >>> 1 >>> 1 >>> 1) ≠ 0)) = true := by
    apply forall_u8
    decide +kernel
  exact of_decide_eq_true (this b)

theorem idLoop_oob (data : Bytes) : idLoop 0x80 0 [] data = .oob ↔
    ∃ b0 b1 b2 b3 b4 rest, data = b0 :: b1 :: b2 :: b3 :: b4 :: rest ∧ b0.toNat < 16 := by
  match data with
  | [] => simp [idLoop]
  | [b0] => simp [idLoop]; split <;> simp
  | [b0, b1] => simp [idLoop]; (repeat' split) <;> simp
  | [b0, b1, b2] => simp [idLoop]; (repeat' split) <;> simp
  | [b0, b1, b2, b3] => simp [idLoop]; (repeat' split) <;> simp
  | b0 :: b1 :: b2 :: b3 :: b4 :: rest =>
    have hm := mask_facts b0
    simp only [idLoop, List.length_nil, List.nil_append, List.length_cons, List.cons_append]
    constructor
    · intro h
      refine ⟨b0, b1, b2, b3, b4, rest, rfl, ?_⟩
      refine Classical.byContradiction fun hc => ?_
      rcases hm.1 (by omega) with m | m | m | m
      · simp [m] at h
      · simp [m] at h; split at h <;> simp at h
      · simp [m] at h; (repeat' split at h) <;> simp at h
      · simp [m] at h; (repeat' split at h) <;> simp at h
    · rintro ⟨c0, c1, c2, c3, c4, rest', h, hlt⟩
      simp only [List.cons.injEq] at h
      obtain ⟨rfl, rfl, rfl, rfl, rfl, rfl⟩ := h
      have hn : ¬ (b0 &&& 0x80 ≠ 0 ∨ b0 &&& ((0x80 : UInt8) >>> 1) ≠ 0 ∨ b0 &&& ((0x80 : UInt8) >>> 1 >>> 1) ≠ 0 ∨
          b0 &&& ((0x80 : UInt8) >>> 1 >>> 1 >>> 1) ≠ 0) := by intro h; have := hm.2 h; omega
      simp only [ne_eq, not_or, Decidable.not_not] at hn
      simp [hn.1, hn.2.1, hn.2.2.1, hn.2.2.2]

theorem outer_first (fuel : Nat) (data : Bytes) (hf : 10 ≤ fuel) :
    outer fuel [] [] 0 data ≠ .fuelOut ∧
    (outer fuel [] [] 0 data = .oob ↔ ∃ b0 b1 b2 b3 b4 rest, data = b0 :: b1 :: b2 :: b3 :: b4 :: rest ∧ b0.toNat < 16) := by
  obtain ⟨fuel, rfl⟩ : ∃ k, fuel = k + 1 := ⟨fuel - 1, by omega⟩
  rw [outer, ← idLoop_oob data]
  cases hid : idLoop 0x80 0 [] data with
  | null => simp
  | oob => simp
  | found id rest =>
    have := sizeLoop_no_oob rest [] 0
    cases h : sizeLoop [] 0 rest with
    | null => simp [h]
    | oob => exact absurd h this
    | done => simp [h]
  | eof id =>
    have heof : outer fuel id [] 1 [] = .null := (outer_eof fuel id [] 1 (by omega)).2 (by omega)
    have hs0 : sizeLoop [] 0 [] = .done [] 1 none [] := by rw [sizeLoop]; simp
    simp [hs0, heof]

end Verif.Ebml.Probe
