import Verif.Ebml.Parse
/-!
Model of mkvtree, `/repo/libmatroska2/test/mkvtree.c:87-255`.

A line is kept as its indentation, the element and its position; what is shown of values is left out. The stream is at the
data of an element when `OutputElement` is called for it. Binary elements are skipped to their end after reading
(mkvtree.c:209), so what their class reads does not matter.
-/
namespace Verif.Ebml.Scan

/-- A line: the number of `+ ` (a negative level shows none), the element and EBML_ElementPosition. -/
structure Shown where
  level : Int
  kind : Kind
  pos : Int
deriving DecidableEq, Repr

/-- Outcome of `OutputElement`: the lines, the element it returns, `*Level` and the position of the stream; `crash` is an
access through a null pointer. -/
inductive ShowRes where
  | done (lines : List Shown) (next : Option Found) (level : Int) (pos : Nat)
  | crash (lines : List Shown)
  | bad
  | fuelOut
deriving DecidableEq, Repr

/-- Lines in front of an outcome. -/
def ShowRes.after (ls : List Shown) : ShowRes → ShowRes
  | .done l n lv p => .done (ls ++ l) n lv p
  | .crash l => .crash (ls ++ l)
  | r => r

/-- Position behind an element that is no master, mkvtree.c:131-241: strings, dates and numbers are read, the rest is skipped
(nothing but a master has an unknown size, so `EBML_ElementSkipData` seeks to the end, ebmlelement.c:96-99). -/
def leafEnd (S : Schema) (env : Env) (data : Bytes) (g : Found) : Option Nat :=
  match g.kind.cls S with
  | .str | .date | .uint | .sint | .float =>
    match readFlat S env data g with
    | .ok _ p => some p
    | .err p => some p
    | _ => none
  | _ => some g.endPos.toNat

/-- `*Level` after a turn, mkvtree.c:120-125. -/
def nextLevel (lv up : Int) : Int :=
  if up < 0 then lv - 1 + up else if up ≠ 0 ∧ lv - 1 > 0 then lv - 1 - (up - 1) else lv - 1

mutual
/-- `OutputElement`, mkvtree.c:87-243. `ctx` is `Context` with what is above it, `none` the null pointer. -/
def showElt (S : Schema) (env : Env) (data : Bytes) : Nat → Option (List PCtx) → Int → Found → ShowRes
  | 0, _, _, _ => .fuelOut
  | fuel + 1, ctx, lv, e =>
    let line : Shown := ⟨lv, e.kind, e.pos⟩
    if e.kind.cls S = .master then
      match e.kind, ctx with
      | .known r, some up =>
        match findNext S true (data.length + 1) data e.streamPos.toNat (⟨r, e.endPos⟩ :: up) 0 with
        | .found g => (showLoop S env data fuel (⟨r, e.endPos⟩ :: up) e g.levels lv (some g) g.streamPos.toNat).after [line]
        | .none l p => (showLoop S env data fuel (⟨r, e.endPos⟩ :: up) e l lv none p).after [line]
        | .bad => .bad
        | .fuelOut => .fuelOut
      -- mkvtree.c:109 reads Context->Profile
      | _, _ => .crash [line]
    else
      match leafEnd S env data e with
      | some p => .done [line] none lv p
      | none => .bad
/-- The loop over the children, mkvtree.c:111-128: `ue` is `UpperElement`, `sub` is `SubElement`, `pos` the stream's position. -/
def showLoop (S : Schema) (env : Env) (data : Bytes) : Nat → List PCtx → Found → Int → Int → Option Found → Nat → ShowRes
  | 0, _, _, _, _, _, _ => .fuelOut
  | _ + 1, _, _, _, lv, none, pos => .done [] none lv pos
  | fuel + 1, ctx, e, ue, lv, some g, pos =>
    if ue ≤ 0 ∧ (e.finite = false ∨ g.pos ≤ e.endPos) then
      match showElt S env data fuel (some ctx) (lv + 1) g with
      | .done ls (some h) lv p => (showLoop S env data fuel ctx e ue (nextLevel lv ue) (some h) p).after ls
      | .done ls none lv p =>
        match findNext S true (data.length + 1) data p ctx ue with
        | .found h => (showLoop S env data fuel ctx e h.levels (nextLevel lv h.levels) (some h) h.streamPos.toNat).after ls
        | .none l p => (showLoop S env data fuel ctx e l (nextLevel lv l) none p).after ls
        | .bad => .bad
        | .fuelOut => .fuelOut
      | r => r
    else .done [] (some g) lv pos
end

/-- The element `OutputTree` makes, mkvtree.c:247-251: of context `root`, of unknown size, nowhere. -/
def streamElt (root : Nat) : Found := ⟨.known root, -1, -1, 0, -1, -1, false, 0, 0⟩

/-- `OutputTree`, mkvtree.c:245-255. -/
def mkvtree (S : Schema) (env : Env) (data : Bytes) (fuel root : Nat) : ShowRes :=
  showElt S env data fuel none (-1) (streamElt root)

/-- The program with line 109 guarded against the null pointer: not the code, but what it is meant to do. -/
def mkvtreeMended (S : Schema) (env : Env) (data : Bytes) (fuel root : Nat) : ShowRes :=
  showElt S env data fuel (some []) (-1) (streamElt root)

end Verif.Ebml.Scan
