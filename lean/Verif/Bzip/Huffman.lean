import Verif.Bzip.Bits
/-!
Model of `BZ2_hbCreateDecodeTables` (`/repo/libmatroska2/bzip2/huffman.c:170-200`), of reading the lengths of the codes and the
selectors (decompress.c:286-354) and of `GET_MTF_VAL` (decompress.c:74-101).
-/
namespace Verif.Bzip
open Verif Verif.Mkv

/-- `limit`, `base` and `perm` of one group, and `minLens`. Only what is written is kept. -/
structure Tab where
  minLen : Nat
  limit : List Int
  base : List Int
  perm : List Nat

/-- `BZ_MAX_CODE_LEN`, bzlib_private.h:116. -/
def maxCodeLen : Nat := 23

/-- Every entry plus the entries in front: huffman.c:188. -/
def accum : Int → List Int → List Int
  | _, [] => []
  | acc, x :: xs => (acc + x) :: accum (acc + x) xs

/-- huffman.c:185-188: how many codes are shorter. -/
def shorter (lens : List Nat) : List Int :=
  accum 0 (lens.foldl (fun b l => b.modify (l + 1) (· + 1)) (List.replicate maxCodeLen 0))

/-- huffman.c:180-183. -/
def permOf (lens : List Nat) (minLen maxLen : Nat) : List Nat :=
  (List.range' minLen (maxLen + 1 - minLen)).flatMap fun i => (List.range lens.length).filter fun j => lens[j]? == some i

/-- huffman.c:191-197: `k` rounds from `i` on. `vec` is below 2^29 as lengths are at most 20. -/
def limitLoop (base : List Int) : Nat → Nat → Int → List Int → List Int
  | 0, _, _, limit => limit
  | k + 1, i, vec, limit =>
    let vec := vec + (base.getD (i + 1) 0 - base.getD i 0)
    limitLoop base k (i + 1) (vec * 2) (limit.set i (vec - 1))

/-- huffman.c:198-199. -/
def baseLoop (limit : List Int) : Nat → Nat → List Int → List Int
  | 0, _, base => base
  | k + 1, i, base => baseLoop limit k (i + 1) (base.set i ((limit.getD (i - 1) 0 + 1) * 2 - base.getD i 0))

/-- `BZ2_hbCreateDecodeTables`, huffman.c:170-200, with `minLen` and `maxLen` of decompress.c:339-344. -/
def makeTab (lens : List Nat) : Tab :=
  let maxLen := lens.foldl max 0
  let minLen := lens.foldl min 32
  let limit := limitLoop (shorter lens) (maxLen + 1 - minLen) minLen 0 (List.replicate maxCodeLen 0)
  ⟨minLen, limit, baseLoop limit (maxLen - minLen) (minLen + 1) (shorter lens), permOf lens minLen maxLen⟩

/-- decompress.c:326-332: the next length. -/
def lenLoop : Nat → Nat → P Nat
  | 0, _ => forever
  | f + 1, curr =>
    if curr < 1 ∨ curr > 20 then fail
    else do
      let uc ← getBit
      if uc = 0 then pure curr
      else
        let uc ← getBit
        if uc = 0 then lenLoop f (curr + 1) else lenLoop f (curr - 1)

/-- decompress.c:325-334: `n` lengths. -/
def lenTable : Nat → Nat → P (List Nat)
  | 0, _ => pure []
  | n + 1, curr => do
    let c ← withFuel fun f => lenLoop f curr
    let r ← lenTable n c
    pure (c :: r)

/-- decompress.c:324-334: the lengths of a group. -/
def getLens (alphaSize : Nat) : P (List Nat) := do
  let curr ← getBits 5
  lenTable alphaSize curr

/-- decompress.c:292-298: a number in unary, less than `g`. -/
def unary (g : Nat) : Nat → Nat → P Nat
  | 0, _ => forever
  | f + 1, j => do
    let uc ← getBit
    if uc = 0 then pure j
    else if j + 1 ≥ g then fail
    else unary g f (j + 1)

/-- `BZ_MAX_SELECTORS`, bzlib_private.h:125. -/
def maxSelectors : Nat := 18002

/-- `pos[v] = pos[v-1]` down to 0, decompress.c:316. -/
def shiftUp : Nat → List Nat → List Nat
  | 0, pos => pos
  | v + 1, pos => shiftUp v (pos.set (v + 1) (pos.getD v 0))

/-- decompress.c:313-320. -/
def undoMtf : List Nat → List Nat → Out (List Nat)
  | _, [] => .ok []
  | pos, v :: vs =>
    match pos[v]? with
    | none => .bad
    | some tmp => (undoMtf ((shiftUp v pos).set 0 tmp) vs).bind fun r => .ok (tmp :: r)

/-- Lifts a result. -/
def lift {α : Type} (x : Out α) : P α := fun r => x.bind fun a => .ok (a, r)

/-- decompress.c:287-320: number of groups, and the selectors. -/
def getSelectors : P (Nat × List Nat) := do
  let nGroups ← getBits 3
  if nGroups < 2 ∨ nGroups > 6 then fail
  else
    let nSelectors ← getBits 15
    if nSelectors < 1 then fail
    else
      let mtf ← times (unary nGroups (nGroups + 1) 0) nSelectors
      let sel ← lift (undoMtf (List.range nGroups) (mtf.take maxSelectors))
      pure (nGroups, sel)

/-- `groupNo + 1`, `groupPos` and the tables of the group. -/
structure Grp where
  next : Nat
  pos : Nat
  tab : Tab

/-- decompress.c:95-100. -/
def pick (t : Tab) (zn zvec : Nat) : P Nat :=
  match t.base[zn]? with
  | none => oob
  | some b =>
    if (zvec : Int) - b < 0 ∨ (zvec : Int) - b ≥ 258 then fail
    else
      match t.perm[((zvec : Int) - b).toNat]? with
      | none => oob
      | some s => pure s

/-- decompress.c:88-95. -/
def zLoop (t : Tab) : Nat → Nat → Nat → P Nat
  | 0, _, _ => forever
  | f + 1, zn, zvec =>
    if zn > 20 then fail
    else
      match t.limit[zn]? with
      | none => oob
      | some l =>
        if (zvec : Int) ≤ l then pick t zn zvec
        else do
          let zj ← getBit
          zLoop t f (zn + 1) (zvec * 2 + zj)

/-- The tables of the next 50 symbols, decompress.c:76-85. -/
def nextGroup (tabs : List Tab) (sel : List Nat) (g : Grp) : P Grp :=
  if g.pos = 0 then
    match sel[g.next]? with
    | none => fail
    | some s =>
      match tabs[s]? with
      | none => oob
      | some t => pure ⟨g.next + 1, 50, t⟩
  else pure g

/-- `GET_MTF_VAL`, decompress.c:74-101. -/
def getSym (tabs : List Tab) (sel : List Nat) (g : Grp) : P (Nat × Grp) := do
  let g ← nextGroup tabs sel g
  let zvec ← getBits g.tab.minLen
  let s ← zLoop g.tab 22 g.tab.minLen zvec
  pure (s, { g with pos := g.pos - 1 })

end Verif.Bzip
