import Verif.Base.Bytes
/-!
Model of the operations on masters that depend on the schema (`/repo/libebml2/ebmlmaster.c:11-64`,
`66-82`, `171-196`, `250-269`, `619-667`), of mkclean's tree reduction (`/repo/mkclean/mkclean.c:196-243`)
and mkvalidator's profile check (`/repo/mkvalidator/mkvalidator.c:409-447`).

Simplifications:
* an element is its type (row of the schema) and its children; values, sizes and checksums are left out;
* allocations succeed (`EBML_ElementCreate`, `NodeTree_SetParent`);
* release build: no legality check when a child is added (ebmlmaster.c:14-38);
* children are addressed by position where the code has pointers.
-/
namespace Verif.Ebml.Master

/-- Element classes. `uint` covers EBML_INTEGER_CLASS and EBML_BOOLEAN_CLASS, `str` both string
classes, `bin` EBML_BINARY_CLASS and MATROSKA_BIGBINARY_CLASS, `uid` MATROSKA_SEGMENTUID_CLASS,
`block` MATROSKA_BLOCK_CLASS, `master` EBML_MASTER_CLASS and the classes derived from it
(matroskamain.c:2478-2523). -/
inductive Cls where
  | uint | sint | date | float | str | bin | uid | block | crc | void | master | dummy
deriving DecidableEq, Repr

/-- An `ebml_semantic`, ebml.h:75-81: `ref` stands for the `eClass` pointer, `disabled` is
`DisabledProfile`. -/
structure Sem where
  mandatory : Bool
  unique : Bool
  ref : Nat
  disabled : Nat
deriving DecidableEq, Repr

/-- An `ebml_context`, ebml_classes.h:19-29. A NULL semantic table is an empty one. -/
structure SCtx where
  id : Nat
  cls : Cls
  hasDefault : Bool
  sem : List Sem
deriving DecidableEq, Repr

/-- All contexts, by number. -/
structure Schema where
  ctx : Nat → SCtx

/-- An element of a type with its children, or an element the reader did not recognise
(EBML_DUMMY_ID), which keeps its ID. -/
inductive T where
  | node (ref : Nat) (kids : List T)
  | dummy (id : Nat)
deriving Repr

/-- `Element->Context->Id`. -/
def T.id (S : Schema) : T → Nat
  | .node r _ => (S.ctx r).id
  | .dummy i => i

/-- Class of the element. -/
def T.cls (S : Schema) : T → Cls
  | .node r _ => (S.ctx r).cls
  | .dummy _ => .dummy

/-- Children of the element. -/
def T.kids : T → List T
  | .node _ ks => ks
  | .dummy _ => []

/-- The walk over the children common to `EBML_MasterFindFirstElt` and `EBML_MasterFindNextElt`,
ebmlmaster.c:54-58, 72-76: position of the first one with the ID, counting from `i`. -/
def findFrom (S : Schema) (id : Nat) : List T → Nat → Option Nat
  | [], _ => none
  | k :: ks, i => if k.id S = id then some i else findFrom S id ks (i + 1)

/-- `EBML_MasterFindFirstElt` without creation (`EBML_MasterFindChild`), ebmlmaster.c:50-64. -/
def findFirst (S : Schema) (id : Nat) (kids : List T) : Option Nat := findFrom S id kids 0

/-- `EBML_MasterFindNextElt` without creation (`EBML_MasterNextChild`), ebmlmaster.c:66-82: the next
one after position `cur` with the same ID. -/
def findNext (S : Schema) (kids : List T) (cur : Nat) : Option Nat :=
  match kids[cur]? with
  | none => none
  | some c => findFrom S (c.id S) (kids.drop (cur + 1)) (cur + 1)

/-- The loop every user writes: `EBML_MasterFindChild`, then `EBML_MasterNextChild` until there is
none. The fuel is one more than the number of children. -/
def walkFrom (S : Schema) (kids : List T) : Nat → Option Nat → List Nat
  | 0, _ => []
  | _, none => []
  | fuel + 1, some i => i :: walkFrom S kids fuel (findNext S kids i)

def walk (S : Schema) (id : Nat) (kids : List T) : List Nat :=
  walkFrom S kids (kids.length + 1) (findFirst S id kids)

/-- Does profile mask `p` leave the entry enabled. -/
def Sem.enabled (s : Sem) (p : Nat) : Bool := (s.disabled &&& p) == 0

/-- The loop of `EBML_MasterAddMandatory`, ebmlmaster.c:250-258, with `EBML_MasterFindFirstElt`
creating at the end of the children what is not there (60-61, 40); `mk` creates. -/
def addMand (S : Schema) (p : Nat) (mk : Nat → Option T) : List Sem → List T → Option (List T)
  | [], kids => some kids
  | s :: ss, kids =>
    if s.mandatory && s.unique && s.enabled p && (findFirst S (S.ctx s.ref).id kids).isNone then
      match mk s.ref with
      | none => none
      | some t => addMand S p mk ss (kids ++ [t])
    else addMand S p mk ss kids

/-- `EBML_ElementCreate`, ebmlmain.c:191-204, with `PostCreate` of masters, ebmlmaster.c:260-269.
`d` is `SetDefault`. The recursion is as deep as the mandatory children nest; without fuel: `none`. -/
def create (S : Schema) (p : Nat) (d : Bool) : Nat → Nat → Option T
  | 0, _ => none
  | fuel + 1, r =>
    if d && (S.ctx r).cls == .master then (addMand S p (create S p d fuel) (S.ctx r).sem []).map (.node r)
    else some (.node r [])

/-- `EBML_MasterAddMandatory` on an element of type `r` with the given children. -/
def addMandatory (S : Schema) (p : Nat) (d : Bool) (fuel : Nat) (r : Nat) (kids : List T) : Option (List T) :=
  addMand S p (create S p d fuel) (S.ctx r).sem kids

/-- `EBML_MasterGetChild`, ebml.h:181: the children afterwards and the position of the child. -/
def getChild (S : Schema) (p : Nat) (fuel : Nat) (c : Nat) (kids : List T) : Option (List T × Nat) :=
  match findFirst S (S.ctx c).id kids with
  | some i => some (kids, i)
  | none => (create S p true fuel c).map (fun t => (kids ++ [t], kids.length))

/-- `CheckMandatory`, ebmlmaster.c:171-182. -/
def checkOwn (S : Schema) (withDefault : Bool) (p : Nat) (r : Nat) (kids : List T) : Bool :=
  (S.ctx r).sem.all (fun s =>
    !(s.mandatory && s.enabled p && (withDefault || !(S.ctx s.ref).hasDefault) && (findFirst S (S.ctx s.ref).id kids).isNone))

mutual
/-- `EBML_MasterCheckMandatory`, ebmlmaster.c:184-196. -/
def checkMandatory (S : Schema) (withDefault : Bool) (p : Nat) : T → Bool
  | .dummy _ => true
  | .node r kids => checkOwn S withDefault p r kids && checkKids S withDefault p kids
def checkKids (S : Schema) (withDefault : Bool) (p : Nat) : List T → Bool
  | [] => true
  | .node r ks :: rest => ((S.ctx r).cls != .master || checkMandatory S withDefault p (.node r ks)) && checkKids S withDefault p rest
  | .dummy _ :: rest => checkKids S withDefault p rest
end

/-- A call of the callback of `EBML_MasterCheckContext`: MASTER_CHECK_PROFILE_INVALID,
MASTER_CHECK_MULTIPLE_UNIQUE or MASTER_CHECK_MISSING_MANDATORY with the entry's type and the element
passed. -/
inductive Report where
  | invalid (ref : Nat) (elt : T)
  | multiple (ref : Nat) (elt : T)
  | missing (ref : Nat)
deriving Repr

/-- The entry of the semantic table for a child, ebmlmaster.c:626-630. -/
def entry (S : Schema) (r : Nat) : T → Option Sem
  | .dummy _ => none
  | .node c ks =>
    if (S.ctx c).cls == .dummy then none
    else (S.ctx r).sem.find? (fun s => (S.ctx s.ref).id == (T.node c ks).id S)

/-- The second child with the ID, ebmlmaster.c:642. -/
def second (S : Schema) (id : Nat) (kids : List T) : Option T :=
  match findFirst S id kids with
  | none => none
  | some i =>
    match findNext S kids i with
    | none => none
    | some j => kids[j]?

/-- The uniqueness check, ebmlmaster.c:642-651: calls so far, and whether the child goes. `ans n` is
what the callback answers to the call number `n`. -/
def visitUnique (S : Schema) (ans : Nat → Bool) (kids : List T) (s : Sem) (log : List Report) : List Report × Bool :=
  if s.unique then
    match second S (S.ctx s.ref).id kids with
    | some e => (log ++ [.multiple s.ref e], ans log.length)
    | none => (log, false)
  else (log, false)

/-- The checks on one child, ebmlmaster.c:624-656. -/
def visit (S : Schema) (p : Nat) (ans : Nat → Bool) (r : Nat) (kids : List T) (k : T) (log : List Report) : List Report × Bool :=
  match entry S r k with
  | none => (log, false)
  | some s =>
    if s.enabled p then visitUnique S ans kids s log
    else if ans log.length then (log ++ [.invalid s.ref k], true)
    else visitUnique S ans kids s (log ++ [.invalid s.ref k])

/-- The loop over the children, ebmlmaster.c:623-657. After a deletion the loop variable is set to the
first child (638, 648) and then advanced by the loop (623): the walk goes on at position 1. -/
def contextLoop (S : Schema) (p : Nat) (ans : Nat → Bool) (r : Nat) : Nat → List T → Nat → List Report → Option (List T × List Report)
  | 0, _, _, _ => none
  | fuel + 1, kids, i, log =>
    match kids[i]? with
    | none => some (kids, log)
    | some k =>
      if (visit S p ans r kids k log).2 then contextLoop S p ans r fuel (kids.eraseIdx i) 1 (visit S p ans r kids k log).1
      else contextLoop S p ans r fuel kids (i + 1) (visit S p ans r kids k log).1

/-- The second loop, ebmlmaster.c:659-667 (it does not look at the profile). -/
def missingReports (S : Schema) (r : Nat) (kids : List T) : List Report :=
  ((S.ctx r).sem.filter (fun s => s.mandatory && !(S.ctx s.ref).hasDefault && (findFirst S (S.ctx s.ref).id kids).isNone)).map
    (fun s => .missing s.ref)

/-- `EBML_MasterCheckContext`, ebmlmaster.c:619-667: the children afterwards and the calls made. -/
def checkContext (S : Schema) (p : Nat) (ans : Nat → Bool) (fuel : Nat) (r : Nat) (kids : List T) : Option (List T × List Report) :=
  match contextLoop S p ans r fuel kids 0 [] with
  | none => none
  | some (kids', log) => some (kids', log ++ missingReports S r kids')

mutual
/-- `CheckProfileViolation`, mkvalidator.c:421-447: the errors put out for the element and everything
below (without the checksum error); the callback (409-419) always answers 0. -/
def violations (S : Schema) (p : Nat) : T → Option (List Report)
  | .dummy _ => some []
  | .node r kids =>
    if (S.ctx r).cls == .master then
      match checkContext S p (fun _ => false) (kids.length + 1) r kids, violationsList S p kids with
      | some (_, l), some l' => some (l ++ l')
      | _, _ => none
    else some []
def violationsList (S : Schema) (p : Nat) : List T → Option (List Report)
  | [] => some []
  | k :: ks =>
    match violations S p k, violationsList S p ks with
    | some l, some l' => some (l ++ l')
    | _, _ => none
end

/-- Is the child one of those `ReduceSize` deletes outright, mkclean.c:214-228. -/
def isFiller (S : Schema) (k : T) : Bool :=
  k.cls S == .void || k.cls S == .dummy || k.cls S == .crc

/-- The end of `ReduceSize`, mkclean.c:233-241, on the reduced children: an element without children
that fails the mandatory check goes, else mandatory children are added and the context is checked with
a callback that always answers 1 (172-194). The outcome is the list of the remaining element. -/
def reduceEnd (S : Schema) (p fuel r : Nat) (kids : List T) : Option (List T) :=
  if kids.isEmpty && !checkMandatory S false p (.node r []) then some []
  else
    match addMandatory S p true fuel r kids with
    | none => none
    | some ks =>
      match checkContext S p (fun _ => true) (ks.length * ks.length + ks.length + 1) r ks with
      | none => none
      | some (ks', _) => some [.node r ks']

mutual
/-- `ReduceSize`, mkclean.c:196-243; `bg` is the type of BlockGroup elements (206-210). -/
def reduce (S : Schema) (bg p fuel : Nat) : T → Option (List T)
  | .dummy i => some [.dummy i]
  | .node r kids =>
    if (S.ctx r).cls != .master then some [.node r kids]
    else if (S.ctx r).id == (S.ctx bg).id && !checkMandatory S false p (.node r kids) then some []
    else
      match reduceList S bg p fuel kids with
      | none => none
      | some kids' => reduceEnd S p fuel r kids'
def reduceList (S : Schema) (bg p fuel : Nat) : List T → Option (List T)
  | [] => some []
  | k :: ks =>
    if isFiller S k then reduceList S bg p fuel ks
    else
      match reduce S bg p fuel k, reduceList S bg p fuel ks with
      | some a, some b => some (a ++ b)
      | _, _ => none
end

end Verif.Ebml.Master
