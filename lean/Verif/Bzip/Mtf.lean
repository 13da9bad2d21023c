import Verif.Bzip.Huffman
/-!
Model of the move-to-front table of `/repo/libmatroska2/bzip2/decompress.c`: 16 windows of 16 bytes that wander down a buffer of
4096 bytes.

Arrays are functions here, with the accesses checked where the index is worked out.
-/
namespace Verif.Bzip
open Verif Verif.Mkv

/-- The entries of an array. -/
structure Mem where
  at_ : Nat → Nat

instance : CoeFun Mem fun _ => Nat → Nat := ⟨Mem.at_⟩

/-- `m[i] = v`. -/
@[noinline] def upd (m : Mem) (i v : Nat) : Mem := ⟨fun j => if j = i then v else m j⟩

/-- `mtfa` and `mtfbase`. -/
structure Mtf where
  a : Mem
  base : Mem

/-- `MTFA_SIZE`, bzlib_private.h:340. -/
def mtfaSize : Nat := 4096

/-- decompress.c:365-375, written out: the last 256 bytes hold 0 to 255, window `ii` starts at 3840 + 16 * ii. -/
def mtfInit : Mtf := ⟨⟨fun i => i - 3840⟩, ⟨fun ii => 3840 + 16 * ii⟩⟩

/-- `mtfa[p+nn] = mtfa[p+nn-1]` down to `nn = 1`, decompress.c:438-448 (four at a time there) and 455-457. -/
def slide (p : Nat) : Nat → Mem → Mem
  | 0, a => a
  | nn + 1, a => slide p nn (upd a (p + nn + 1) (a (p + nn)))

/-- decompress.c:459-464. -/
def carry : Nat → Mtf → Mtf
  | 0, m => m
  | l + 1, m =>
    let base := upd m.base (l + 1) (m.base (l + 1) - 1)
    carry l ⟨upd m.a (base (l + 1)) (m.a (base l + 15)), base⟩

/-- One window of decompress.c:470-476: `jj` from `n-1` down, `kk` is `k + n - 1` at first. -/
def refillRow (src k : Nat) : Nat → Mem → Mem
  | 0, a => a
  | n + 1, a => refillRow src k n (upd a (k + n) (a (src + n)))

/-- decompress.c:469-476: windows `n-1` down to 0. -/
def refill : Nat → Mtf → Mtf
  | 0, m => m
  | n + 1, m => refill n ⟨refillRow (m.base n) (3840 + 16 * n) 16 m.a, upd m.base n (3840 + 16 * n)⟩

/-- `uc = MTF(nextSym-1)`, decompress.c:429-481, with `nn = nextSym-1`. -/
def mtfStep (m : Mtf) (nn : Nat) : Out (Nat × Mtf) :=
  if nn < 16 then
    let pp := m.base 0
    if pp + nn < mtfaSize then
      let uc := m.a (pp + nn)
      .ok (uc, { m with a := upd (slide pp nn m.a) pp uc })
    else .bad
  else
    let lno := nn / 16
    let off := nn % 16
    if lno < 16 ∧ m.base lno + off < mtfaSize ∧ (∀ l < lno, m.base l + 15 < mtfaSize) ∧ 0 < m.base 0 then
      let uc := m.a (m.base lno + off)
      let m1 : Mtf := ⟨slide (m.base lno) off m.a, upd m.base lno (m.base lno + 1)⟩
      let m2 := carry lno m1
      let b0 := m2.base 0 - 1
      let m3 : Mtf := ⟨upd m2.a b0 uc, upd m2.base 0 b0⟩
      .ok (uc, if b0 = 0 then refill 16 m3 else m3)
    else .bad

end Verif.Bzip
