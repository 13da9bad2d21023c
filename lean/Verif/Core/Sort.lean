import Verif.Base.Bytes
/-!
Model of sorting and searching in corec/corec/array/array.c, on the elements of an array.

An array is the list of its elements; the comparison function is a parameter. The outcome `none`
stands for an access outside of the array (and, in `qsort` and `part`, for running out of the
step budget, which the theorems exclude as well).
-/
namespace Verif.Core
open Verif

variable {α : Type}

/-- `Cmp(CmpParam, a + i, a + j)`. -/
def cmpAt (cmp : α → α → Int) (a : List α) (i j : Nat) : Option Int :=
  match a[i]?, a[j]? with
  | some x, some y => some (cmp x y)
  | _, _ => none

/-- `InQSortSwap`, array.c:269-274. -/
def swapAt (a : List α) (i j : Nat) : Option (List α) :=
  match a[i]?, a[j]? with
  | some x, some y => some ((a.set i y).set j x)
  | _, _ => none

/-- Choice of the reference element, array.c:285-299. -/
def pivotAt (cmp : α → α → Int) (a : List α) (first mid last : Nat) : Option Nat :=
  match cmpAt cmp a first last, cmpAt cmp a last mid, cmpAt cmp a first mid with
  | some fl, some lm, some fm =>
    if fl < 0 then
      if lm < 0 then some last
      else if fm < 0 then some mid
      else some first
    else if fm ≥ 0 then
      if lm < 0 then some mid else some last
    else some first
  | _, _, _ => none

/-- `while (++Left < Last && Cmp(First,Left) > 0) {}`, array.c:309, with a step budget. -/
def scanLeft (cmp : α → α → Int) (a : List α) (first last : Nat) : Nat → Nat → Option Nat
  | 0, _ => none
  | n + 1, left =>
    if left + 1 < last then
      match cmpAt cmp a first (left + 1) with
      | none => none
      | some c => if c > 0 then scanLeft cmp a first last n (left + 1) else some (left + 1)
    else some (left + 1)

/-- `while (Cmp(First,--Right) < 0) {}`, array.c:311. Running below the array is `none`. -/
def scanRight (cmp : α → α → Int) (a : List α) (first : Nat) : Nat → Option Nat
  | 0 => none
  | right + 1 =>
    match cmpAt cmp a first right with
    | none => none
    | some c => if c < 0 then scanRight cmp a first right else some right

/-- The partition loop, array.c:307-317. -/
def part (cmp : α → α → Int) (first last : Nat) : Nat → List α → Nat → Nat → Option (List α × Nat × Nat)
  | 0, _, _, _ => none
  | n + 1, a, left, right =>
    match scanLeft cmp a first last (last + 1) left with
    | none => none
    | some l =>
      match scanRight cmp a first right with
      | none => none
      | some r =>
        if l ≥ r then some (a, l, r)
        else
          match swapAt a l r with
          | none => none
          | some a' => part cmp first last n a' l r

/-- `InQSort`, array.c:276-344; the outer loop and the inner call are both recursive calls. -/
def qsort (cmp : α → α → Int) : Nat → List α → Nat → Nat → Option (List α)
  | 0, _, _, _ => none
  | n + 1, a, first, last =>
    if last > first + 16 then
      match pivotAt cmp a first (first + (last - first) / 2) last with
      | none => none
      | some ref =>
        match (if ref ≠ first then swapAt a first ref else some a) with
        | none => none
        | some a1 =>
          match part cmp first last (last + 2) a1 first (last + 1) with
          | none => none
          | some (a2, left, right) =>
            if right = first then qsort cmp n a2 (first + 1) last
            else
              match swapAt a2 first right with
              | none => none
              | some a3 =>
                if (right : Int) - 1 - first < (last : Int) - left then
                  match (if right - 1 > 16 + first then qsort cmp n a3 first (right - 1) else some a3) with
                  | none => none
                  | some a4 => qsort cmp n a4 left last
                else
                  match (if last > 16 + left then qsort cmp n a3 left last else some a3) with
                  | none => none
                  | some a4 => qsort cmp n a4 first (right - 1)
    else some a

/-- The `do … while` of the insertion sort, array.c:365-375 and 411-418: `tmp` has been taken
out of the array, everything larger moves up by one from position `j` on downwards. -/
def shiftUp (cmp : α → α → Int) (tmp : α) : Nat → List α → Option (List α)
  | 0, a =>
    match a[0]? with
    | none => none
    | some x => if 1 < a.length then some ((a.set 1 x).set 0 tmp) else none
  | j + 1, a =>
    match a[j + 1]? with
    | none => none
    | some x =>
      if j + 2 < a.length then
        match (a.set (j + 2) x)[j]? with
        | none => none
        | some y =>
          if cmp tmp y < 0 then shiftUp cmp tmp j (a.set (j + 2) x) else some ((a.set (j + 2) x).set (j + 1) tmp)
      else none

/-- One round of the insertion sort for the element at `i ≥ 1`, array.c:361-377 and 407-420. -/
def insertAt (cmp : α → α → Int) (a : List α) (i : Nat) : Option (List α) :=
  match a[i]? with
  | none => none
  | some x =>
    match cmpAt cmp a i (i - 1) with
    | none => none
    | some c => if c < 0 then shiftUp cmp x (i - 1) a else some a

/-- The insertion sort from position `i` on, `n` rounds. -/
def insertLoop (cmp : α → α → Int) : Nat → Nat → List α → Option (List α)
  | 0, _, a => some a
  | n + 1, i, a =>
    match insertAt cmp a i with
    | none => none
    | some a' => insertLoop cmp n (i + 1) a'

/-- The pass that drops repeated elements, array.c:379-391 and 422-431: `j` is the last element
kept. (Simplified: the kept elements are collected in a list instead of in the same memory;
they never overtake the element looked at.) -/
def uniqLoop (cmp : α → α → Int) (j : α) : List α → List α
  | [] => [j]
  | i :: r => if cmp i j ≠ 0 then j :: uniqLoop cmp i r else uniqLoop cmp j r

/-- The pass that drops repeated elements. -/
def uniq (cmp : α → α → Int) : List α → List α
  | [] => []
  | x :: r => uniqLoop cmp x r

/-- `ArraySortEx` on all elements of an array, array.c:394-442. `word` tells if the elements
have the size of an `uint_fast32_t` (8 bytes on 64-bit Linux, the size of a pointer). -/
def sortEx (cmp : α → α → Int) (word : Bool) (unique : Bool) (a : List α) : Option (List α) :=
  if a.length ≤ 1 then some a
  else
    match (if word then qsort cmp (a.length + 1) a 0 (a.length - 1) else some a) with
    | none => none
    | some a1 =>
      match insertLoop cmp (a.length - 1) 1 a1 with
      | none => none
      | some a2 => if unique then some (uniq cmp a2) else some a2

/-- `EBML_MasterSort`, libebml2/ebmlmaster.c:115-136: the children, as an array of pointers, are
sorted and put back in the new order. -/
def masterSort (cmp : α → α → Int) (children : List α) : Option (List α) := sortEx cmp true false children

/-- The binary search of `ArrayFindEx`, array.c:459-487; `c x` is `Cmp(x, Data)`. -/
def bsearch (c : α → Int) (a : List α) : Nat → Int → Int → Int → Option (Bool × Int)
  | 0, _, _, _ => none
  | n + 1, lower, upper, mid =>
    if upper ≥ lower then
      let m := (upper + lower) / 2
      match a[m.toNat]? with
      | none => none
      | some x =>
        if c x > 0 then bsearch c a n lower (m - 1) m
        else if c x < 0 then bsearch c a n (m + 1) upper m
        else some (true, m)
    else some (false, if upper = mid - 1 then mid else lower)

/-- `ArrayFindEx` with a comparison function: found flag and index. -/
def findEx (c : α → Int) (a : List α) : Option (Bool × Int) :=
  if a = [] then some (false, 0) else bsearch c a (a.length + 1) 0 (a.length - 1) 0

/-- `ArrayFindEx` without a comparison function (equal bytes), array.c:488-501. -/
def findEq [DecidableEq α] (x : α) : List α → Nat → Bool × Nat
  | [], n => (false, n)
  | y :: r, n => if y = x then (true, n) else findEq x r (n + 1)

/-- `ArrayAddEx`, array.c:504-519; `ok` is the result of `ArrayInsert`. -/
def addEx (cmp : α → α → Int) (ok : Bool) (a : List α) (x : α) : Option (Int × List α) :=
  match findEx (fun y => cmp y x) a with
  | none => none
  | some (false, pos) =>
    if ok then some (pos, a.take pos.toNat ++ x :: a.drop pos.toNat) else some (-1, a)
  | some (true, pos) => some (pos, a.set pos.toNat x)

/-- `ArrayRemoveEx`, array.c:521-528. -/
def removeEx (cmp : α → α → Int) (a : List α) (x : α) : Option (Bool × List α) :=
  match findEx (fun y => cmp y x) a with
  | none => none
  | some (false, _) => some (false, a)
  | some (true, pos) => some (true, a.take pos.toNat ++ a.drop (pos.toNat + 1))

inductive SOp (α : Type) where
  | add (x : α)
  | remove (x : α)

/-- One call: result and new array. -/
def setStep (cmp : α → α → Int) (ok : Bool) (a : List α) : SOp α → Option (Bool × List α)
  | .add x => (addEx cmp ok a x).map fun r => (decide (0 ≤ r.1), r.2)
  | .remove x => removeEx cmp a x

def setRun (cmp : α → α → Int) : List (SOp α × Bool) → List α → Option (List Bool × List α)
  | [], a => some ([], a)
  | (op, ok) :: r, a =>
    match setStep cmp ok a op with
    | none => none
    | some (f, a') =>
      match setRun cmp r a' with
      | none => none
      | some (fs, a'') => some (f :: fs, a'')

end Verif.Core
