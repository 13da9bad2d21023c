import Verif.Core.FileLibc
import Verif.Props.UrlRel
/-!
Property theorems C220 to C223: handles, files, directories and dates on Linux.
-/
namespace Verif.FileLibc
open Verif Verif.Mkv Verif.Url

/-! ### C220 -/

/-- The stream has what it opened; `fds` and `dirs` are handles of others. -/
def Owns (fds dirs : List Nat) (s : Handles) : Prop := s.fds = s.fd.toList ++ fds ∧ s.dirs = s.dir.toList ++ dirs

theorem closeOpt_owned (h : Option Nat) (l : List Nat) : closeOpt h (h.toList ++ l) = .ok l := by
  cases h <;> simp [closeOpt]

theorem step_owns (fds dirs : List Nat) (s : Handles) (o : Op) (hs : Owns fds dirs s) : ∃ s', step s o = .ok s' ∧ Owns fds dirs s' := by
  obtain ⟨h1, h2⟩ := hs
  cases o with
  | «open» named answer =>
    cases named <;> simp [step, h1, closeOpt_owned, Out.bind, Owns, h2]
  | openDir answer => simp [step, h1, h2, closeOpt_owned, Out.bind, Owns]
  | enumEnd =>
    cases hd : s.dir with
    | none => exact ⟨s, by simp [step, hd], h1, h2⟩
    | some d =>
      rw [hd] at h2
      refine ⟨{ s with dir := none, dirs := dirs }, ?_, h1, by simp⟩
      have := closeOpt_owned (some d) dirs
      rw [← h2] at this
      simp [step, hd, this, Out.bind]

/-- C220. Whatever is opened and listed with a stream, and whatever the system answers: only handles of the stream are closed, each
once, and when the stream is deleted nothing stays open that was not open before. -/
theorem C220_handles (fds dirs : List Nat) (os : List Op) :
    ∃ s, run ⟨none, none, fds, dirs⟩ os = .ok s ∧ Owns fds dirs s ∧
      ∃ s', delete s = .ok s' ∧ s'.fds = fds ∧ s'.dirs = dirs := by
  suffices h : ∀ (os : List Op) (s : Handles), Owns fds dirs s → ∃ s', run s os = .ok s' ∧ Owns fds dirs s' by
    obtain ⟨s, h1, h2⟩ := h os ⟨none, none, fds, dirs⟩ ⟨rfl, rfl⟩
    refine ⟨s, h1, h2, ?_⟩
    obtain ⟨h3, h4⟩ := h2
    exact ⟨{ s with fd := none, fds := fds, dirs := dirs }, by simp [delete, h3, h4, closeOpt_owned, Out.bind], rfl, rfl⟩
  intro os
  induction os with
  | nil => exact fun s hs => ⟨s, rfl, hs⟩
  | cons o os ih =>
    intro s hs
    obtain ⟨s1, h1, h2⟩ := step_owns fds dirs s o hs
    obtain ⟨s2, h3, h4⟩ := ih s1 h2
    exact ⟨s2, by simp [run, h1, Out.bind, h3], h4⟩

example : run ⟨none, none, [0, 1, 2], [9]⟩ [.open true (some 3), .openDir (some 4), .open true (some 3), .enumEnd, .openDir (some 4), .open true none] =
    .ok ⟨none, some 4, [0, 1, 2], [4, 9]⟩ := by decide

/-- Closing a handle that is not open would have been noticed. -/
theorem C220_notices (h : Nat) (l : List Nat) : closeOpt (some h) l = .bad ↔ h ∉ l := by
  by_cases hh : h ∈ l <;> simp [closeOpt, hh]

/-! ### C221 -/

/-- C221. Reading: what is delivered are the bytes at the position, the number reported is their number and the position is behind them;
the call succeeds exactly when all bytes asked for were delivered. -/
theorem C221_read (f : File) (size k : Nat) (hs : size ≤ ssizeMax) (hr : f.canRead = true) :
    ∃ n, read f size k = ({ f with pos := f.pos + n }, if n = size then .none else .endOfFile, (f.data.drop f.pos).take n, some n) ∧
      n = min (min k size) (f.data.length - f.pos) := by
  refine ⟨((f.data.drop f.pos).take (min k size)).length, ?_, by simp [List.length_take]⟩
  have h1 : (f.data.drop f.pos).take ((f.data.drop f.pos).take (min k size)).length = (f.data.drop f.pos).take (min k size) := by
    rw [List.length_take, List.take_eq_take_iff]; simp
  simp only [read, if_neg (Nat.not_lt.2 hs), hr, if_true, h1]
  split <;> simp_all

/-- C221. If the system delivers what is there, the end of the file is reported exactly when less is left than was asked for. -/
theorem C221_end (f : File) (size : Nat) (hs : size ≤ ssizeMax) (hr : f.canRead = true) :
    (read f size size).2.1 = .endOfFile ↔ f.data.length < f.pos + size ∧ 0 < size := by
  obtain ⟨n, h1, h2⟩ := C221_read f size size hs hr
  rw [h1]
  simp only [Nat.min_self] at h2
  by_cases h : n = size
  · simp only [if_pos h, reduceCtorEq, false_iff]; omega
  · simp only [if_neg h, true_iff]; omega

/-- A system that is interrupted makes the file end early: the end is reported with bytes left. -/
theorem C221_short_read_counterexample :
    (read ⟨[1, 2, 3, 4], 0, true, false, 4⟩ 4 2).2.1 = .endOfFile ∧ (read ⟨[1, 2, 3, 4], 0, true, false, 4⟩ 4 2).1.pos = 2 := by decide +kernel

theorem patch_get (data d : Bytes) (pos i : Nat) :
    (patch data pos d)[i]? =
      if pos ≤ i ∧ i < pos + d.length then d[i - pos]?
      else if i < data.length then data[i]?
      else if i < pos ∧ d ≠ [] then some 0
      else none := by
  unfold patch
  by_cases hd : d = []
  · subst hd
    simp only [if_true, List.length_nil, Nat.add_zero]
    rw [if_neg (by omega)]
    split
    · rfl
    · simp; omega
  · rw [if_neg hd]
    have hl : 0 < d.length := List.length_pos_iff.2 hd
    simp only [List.getElem?_append, List.length_append, List.length_take, List.length_replicate, List.getElem?_take, List.getElem?_drop,
      List.getElem?_replicate]
    have e1 : min pos data.length + (pos - data.length) = pos := by omega
    rw [e1]
    by_cases h1 : i < pos
    · have hz : i < pos + d.length := by omega
      rw [if_pos hz, if_pos h1, if_neg (show ¬ (pos ≤ i ∧ i < pos + d.length) by omega)]
      by_cases h2 : i < data.length
      · rw [if_pos (show i < min pos data.length by omega), if_pos h1, if_pos h2]
      · rw [if_neg (show ¬ i < min pos data.length by omega), if_neg h2, if_pos (show i - min pos data.length < pos - data.length by omega),
          if_pos (show i < pos ∧ d ≠ [] from ⟨h1, hd⟩)]
    · by_cases h2 : i < pos + d.length
      · rw [if_pos (by omega), if_neg h1, if_pos ⟨by omega, h2⟩]
      · rw [if_neg (by omega), if_neg (by omega)]
        have e2 : pos + d.length + (i - (pos + d.length)) = i := by omega
        rw [e2]
        by_cases h3 : i < data.length
        · rw [if_pos h3]
        · rw [if_neg h3, if_neg (by omega)]; simp; omega

/-- C221. Writing changes exactly the bytes written: byte `i` of the file is the one written, else the one there was, and a gap that
comes about is filled with zeros. The number reported is that of the bytes written, and success means that all were. -/
theorem C221_write (f : File) (d : Bytes) (k : Nat) (hs : d.length ≤ ssizeMax) (hw : f.canWrite = true) :
    ∃ n, n = min k d.length ∧ (write f d k).2 = (if n = d.length then .none else .write, some n) ∧
      (write f d k).1.pos = f.pos + n ∧
      ∀ i, (write f d k).1.data[i]? =
        if f.pos ≤ i ∧ i < f.pos + n then d[i - f.pos]?
        else if i < f.data.length then f.data[i]?
        else if i < f.pos ∧ n ≠ 0 then some 0
        else none := by
  refine ⟨min k d.length, rfl, ?_⟩
  simp only [write, if_neg (Nat.not_lt.2 hs), hw, if_true, List.length_take]
  refine ⟨by split <;> simp_all, trivial, fun i => ?_⟩
  rw [patch_get, List.length_take]
  have e : (d.take k ≠ []) ↔ (min k d.length ≠ 0) := by
    rw [← List.length_pos_iff.trans Iff.rfl, List.length_take]; omega
  simp only [e]
  by_cases h : f.pos ≤ i ∧ i < f.pos + min k d.length
  · rw [if_pos h, if_pos h, List.getElem?_take, if_pos (by omega)]
  · rw [if_neg h, if_neg h]

/-- C221. What was written is read back: writing, seeking to where the writing began, and reading as many bytes. -/
theorem C221_write_read (f : File) (d : Bytes) (hs : d.length ≤ ssizeMax) (hw : f.canWrite = true) (hr : f.canRead = true) :
    let g := (seek (write f d d.length).1 f.pos .set).1
    (read g d.length d.length).2 = (.none, d, some d.length) := by
  intro g
  obtain ⟨n, hn, -, hp, hi⟩ := C221_write f d d.length hs hw
  rw [Nat.min_self] at hn
  subst hn
  have hg : g = { (write f d d.length).1 with pos := f.pos } := by
    have e : Mode.base (write f d d.length).1 .set + (f.pos : Int) = (f.pos : Int) := by simp [Mode.base]
    simp only [g, seek, e]; rw [if_neg (by omega)]; simp
  have hgr : g.canRead = true := by
    rw [hg]; simp only [write, if_neg (Nat.not_lt.2 hs), hw, if_true, hr]
  have hgd : g.data = (write f d d.length).1.data := by rw [hg]
  have hgp : g.pos = f.pos := by rw [hg]
  have ht : (g.data.drop g.pos).take d.length = d := by
    apply List.ext_getElem?
    intro i
    rw [List.getElem?_take, List.getElem?_drop, hgd, hgp, hi]
    by_cases h : i < d.length
    · rw [if_pos h, if_pos (by omega)]; congr 1; omega
    · rw [if_neg h]; simp; omega
  obtain ⟨n, h1, h2⟩ := C221_read g d.length d.length hs hgr
  have hl : d.length ≤ g.data.length - g.pos := by
    have := congrArg List.length ht
    rw [List.length_take, List.length_drop] at this; omega
  have hn : n = d.length := by omega
  subst hn
  rw [h1, if_pos rfl, ht]

/-- The length a stream reports is the one the file had when it was opened: as stated for the length C221 does not hold. -/
theorem C221_length_counterexample :
    let f := openFile false true true [9, 9]
    (write f [1, 2, 3] 3).2.1 = .none ∧ (write f [1, 2, 3] 3).1.data = [1, 2, 3] ∧ (write f [1, 2, 3] 3).1.length = 0 ∧
    (setLength f 7).data.length = 7 ∧ (setLength f 7).length = 0 := by decide +kernel

/-- C221. The length reported is right when the file is opened, and stays so while it is only read and moved in. -/
theorem C221_length_read_only (rd wr create : Bool) (old : Bytes) (f : File) (hf : f.length = f.data.length) (size k : Nat) (p : Int) (m : Mode) :
    (openFile rd wr create old).length = (openFile rd wr create old).data.length ∧
    (read f size k).1.length = (read f size k).1.data.length ∧ (seek f p m).1.length = (seek f p m).1.data.length := by
  refine ⟨rfl, ?_, ?_⟩
  · simp only [read]; split
    · exact hf
    · split <;> exact hf
  · unfold seek; split <;> exact hf

/-- C221. Opening: what the file had is there, unless it is created; the position is at the beginning; without modes it can be read and
written, otherwise what was asked for. -/
theorem C221_opened (rd wr create : Bool) (old : Bytes) :
    (openFile rd wr create old).data = (if create then [] else old) ∧ (openFile rd wr create old).pos = 0 ∧
    ((openFile rd wr create old).canRead = true ↔ rd = true ∨ wr = false) ∧
    ((openFile rd wr create old).canWrite = true ↔ wr = true ∨ rd = false) := by
  cases rd <;> cases wr <;> cases create <;> simp [openFile]

/-- C221. What a file was not opened for fails without effect, with nothing delivered or taken; so do sizes of 2^63 and more. -/
theorem C221_refused (f : File) (size k n : Nat) (d : Bytes) :
    (f.canRead = false ∨ 2 ^ 63 ≤ size → (read f size k).1 = f ∧ (read f size k).2.1 = .read ∧ (read f size k).2.2.1 = []) ∧
    (f.canRead = false → size < 2 ^ 63 → (read f size k).2.2.2 = some 0) ∧
    (f.canWrite = false ∨ 2 ^ 63 ≤ d.length → (write f d k).1 = f ∧ (write f d k).2.1 = .write) ∧
    (f.canWrite = false → d.length < 2 ^ 63 → (write f d k).2.2 = some 0) ∧
    (f.canWrite = false → setLength f n = f) := by
  have hm : ssizeMax + 1 = 2 ^ 63 := by decide
  generalize (2 : Nat) ^ 63 = m at hm
  refine ⟨?_, ?_, ?_, ?_, ?_⟩
  · rintro (h | h)
    · by_cases hs : size > ssizeMax <;> simp [read, h, hs]
    · simp [read, show size > ssizeMax by omega]
  · intro h hs
    simp [read, h, show ¬ size > ssizeMax by omega]
  · rintro (h | h)
    · by_cases hs : d.length > ssizeMax <;> simp [write, h, hs]
    · simp [write, show d.length > ssizeMax by omega]
  · intro h hs
    simp [write, h, show ¬ d.length > ssizeMax by omega]
  · intro h
    simp [setLength, h]

/-- C221. Setting the length of a file that can be written: that many bytes are kept, missing ones become zeros, the position stays. -/
theorem C221_set_length (f : File) (n : Nat) (hw : f.canWrite = true) :
    (setLength f n).data.length = n ∧ (setLength f n).pos = f.pos ∧
    ∀ i, i < n → (setLength f n).data[i]? = some (f.data[i]?.getD 0) := by
  simp only [setLength, hw, if_true, List.length_append, List.length_take, List.length_replicate]
  refine ⟨by omega, trivial, ?_⟩
  intro i hi
  by_cases h : i < f.data.length
  · rw [List.getElem?_append_left (by simp; omega), List.getElem?_take, if_pos hi, List.getElem?_eq_getElem h]
    rfl
  · rw [List.getElem?_append_right (by simp; omega), List.getElem?_replicate, if_pos (by simp; omega),
      List.getElem?_eq_none (by omega)]
    rfl

example : (setLength ⟨[1, 2, 3], 1, true, true, 3⟩ 5).data = [1, 2, 3, 0, 0] ∧ (setLength ⟨[1, 2, 3], 1, true, true, 3⟩ 2).data = [1, 2] ∧
    (write ⟨[1, 2, 3], 1, true, false, 3⟩ [7] 1) = (⟨[1, 2, 3], 1, true, false, 3⟩, .write, some 0) := by decide +kernel

/-- C221. Seeking: the position is counted from the beginning, the position or the end, and a negative one is refused. -/
theorem C221_seek (f : File) (p : Int) (m : Mode) (b : Int)
    (hb : b = match m with | .set => (0 : Int) | .cur => f.pos | .fin => f.data.length) :
    (0 ≤ b + p → ∃ n : Nat, (n : Int) = b + p ∧ seek f p m = ({ f with pos := n }, some n)) ∧ (b + p < 0 → seek f p m = (f, none)) := by
  have e : m.base f = b := by cases m <;> simp [Mode.base, hb]
  unfold seek
  rw [e]
  refine ⟨fun h => ⟨(b + p).toNat, by omega, by rw [if_neg (by omega)]⟩, fun h => by rw [if_pos h]⟩

theorem skipLoop_spec : ∀ (fuel : Nat) (f : File) (n : Nat), n < fuel → f.canRead = true → f.pos ≤ f.data.length →
    skipLoop fuel f n = ({ f with pos := f.pos + min n (f.data.length - f.pos) },
      if f.pos + n ≤ f.data.length then .none else .endOfFile, (n : Int) - (min n (f.data.length - f.pos) : Nat))
  | 0, _, _, h, _, _ => by omega
  | fuel + 1, f, n, h, hr, hp => by
    rw [skipLoop]
    by_cases h0 : (n : Int) > 0
    · rw [if_pos h0]
      have hsz : (min (n : Int) 1024).toNat = min n 1024 := by omega
      rw [hsz]
      obtain ⟨m, hm, hmv⟩ := C221_read f (min n 1024) (min n 1024) (by
        have : (1024 : Nat) ≤ ssizeMax := by decide
        omega) hr
      simp only [hm, Option.getD_some]
      rw [Nat.min_self] at hmv
      by_cases hfull : m = min n 1024
      · simp only [if_pos hfull, if_true]
        have e : ((n : Int) - (m : Int)) = ((n - m : Nat) : Int) := by omega
        rw [e, skipLoop_spec fuel { f with pos := f.pos + m } (n - m) (by omega) hr (by simp only; omega)]
        simp only
        have e1 : f.pos + m + min (n - m) (f.data.length - (f.pos + m)) = f.pos + min n (f.data.length - f.pos) := by omega
        have e2 : (f.pos + m + (n - m) ≤ f.data.length) ↔ (f.pos + n ≤ f.data.length) := by omega
        have e3 : ((n - m : Nat) : Int) - (min (n - m) (f.data.length - (f.pos + m)) : Nat) = (n : Int) - (min n (f.data.length - f.pos) : Nat) := by omega
        rw [e1, e3]; simp only [e2]
      · rw [if_neg hfull, if_neg (by decide), if_neg (by omega)]
        have e1 : m = min n (f.data.length - f.pos) := by omega
        rw [← e1]
    · rw [if_neg h0]
      have : n = 0 := by omega
      subst this
      simp [hp]

/-- C221. Skipping: the position moves by the number asked for, or to the end of the file, which is reported then with the number that
is left. -/
theorem C221_skip (f : File) (n : Nat) (hr : f.canRead = true) (hp : f.pos ≤ f.data.length) :
    ((skip f n).1 = { f with pos := min (f.pos + n) f.data.length }) ∧
    ((skip f n).2.1 = .none ↔ f.pos + n ≤ f.data.length) ∧
    (skip f n).2.2 = ((f.pos + n - f.data.length : Nat) : Int) := by
  rw [skip, Int.toNat_natCast, skipLoop_spec (n + 1) f n (by omega) hr hp]
  refine ⟨?_, ?_, ?_⟩
  · have : f.pos + min n (f.data.length - f.pos) = min (f.pos + n) f.data.length := by omega
    rw [this]
  · simp only; split <;> simp_all
  · simp only; omega

example : (write ⟨[1, 2, 3], 5, true, true, 3⟩ [7, 8] 2).1.data = [1, 2, 3, 0, 0, 7, 8] ∧
    (write ⟨[1, 2, 3], 1, true, true, 3⟩ [7] 1).1.data = [1, 7, 3] ∧
    (write ⟨[1, 2, 3], 1, true, true, 3⟩ [7, 8] 1).2 = (.write, some 1) ∧
    (skip ⟨[1, 2, 3], 1, true, true, 3⟩ 5) = (⟨[1, 2, 3], 3, true, true, 3⟩, .endOfFile, 3) := by decide +kernel

/-! ### C222 -/

/-- The listing one expects: visible entries in their order; directories always, files with the type of their extension, and if that is
asked for only those with one. -/
def listing (stat : Str → Option Stat) (typ : Str → Nat) (filter : Bool) (names : List Str) : List Item :=
  names.filterMap fun n =>
    if n.head? = some 0x2E then none
    else (stat n).bind fun st =>
      if st.isDir then some ⟨n, toDate st.mtime, 0x44, none⟩
      else if filter = true ∧ typ n = 0 then none
      else some ⟨n, toDate st.mtime, typ n, some st.size⟩

theorem scheme_noslash (n : Str) (h : 0x2F ∉ n) : scheme n = none := by
  unfold scheme
  simp only
  rw [if_neg]
  intro hc
  have h1 := List.isPrefixOf_iff_prefix.1 hc
  have h2 : 0x2F ∈ n.drop (n.takeWhile (· != 0x3A)).length := h1.subset (by simp)
  exact h (List.mem_of_mem_drop h2)

theorem protoName_none (m : Nat) (h5 : 5 ≤ m) (n : Str) (h : scheme n = none) : protoName m n = lit "file" := by
  simp only [protoName, h, copy]
  exact List.take_of_length_le (by simp [lit]; omega)

theorem checkExts_ok (m : Nat) (h5 : 5 ≤ m) (n exts : Str) (h : 0x2F ∉ n) : ∃ t, checkExts m n exts = .ok t := by
  have hs := scheme_noslash n h
  have : cutFragment m n (splitDir n).2 = .ok (splitDir n).2 := by
    simp only [cutFragment, protoName_none m h5 n hs]
    rw [if_neg]
    have : ieq (lit "file") (lit "http") = false := by decide +kernel
    simp [this]
  simp [checkExts, splitPath, this, Out.bind]

/-- The type of an extension. -/
def typeIn (cap : Nat) (exts n : Str) : Nat :=
  match checkExts cap n exts with
  | .ok t => t
  | _ => 0

theorem enumDir_spec (cap : Nat) (stat : Str → Option Stat) (dir exts : Str) (filter : Bool) (hcap : 5 ≤ cap) : ∀ (names : List Str),
    (∀ n ∈ names, n ≠ [] ∧ 0x2F ∉ n ∧ (dir ++ n).length < cap ∧ (n.head? = some 0x2E ∨ (stat (dir ++ n)).isSome)) →
    ∃ i rest, enumDir cap stat dir exts filter names = .ok (i, rest) ∧
      (i = none → listing (fun n => stat (dir ++ n)) (typeIn cap exts) filter names = [] ∧ rest = []) ∧
      (∀ x, i = some x → (∃ pre, names = pre ++ rest ∧ pre ≠ []) ∧
        listing (fun n => stat (dir ++ n)) (typeIn cap exts) filter names = x :: listing (fun n => stat (dir ++ n)) (typeIn cap exts) filter rest)
  | [], _ => ⟨none, [], rfl, fun _ => ⟨rfl, rfl⟩, by simp⟩
  | n :: names, h => by
    obtain ⟨hn, hsl, hlen, hst⟩ := h n List.mem_cons_self
    obtain ⟨i, rest, h1, h2, h3⟩ := enumDir_spec cap stat dir exts filter hcap names fun m hm => h m (List.mem_cons_of_mem _ hm)
    have skipped : listing (fun n => stat (dir ++ n)) (typeIn cap exts) filter (n :: names) =
          listing (fun n => stat (dir ++ n)) (typeIn cap exts) filter names →
        enumDir cap stat dir exts filter (n :: names) = enumDir cap stat dir exts filter names →
        ∃ i rest, enumDir cap stat dir exts filter (n :: names) = .ok (i, rest) ∧
          (i = none → listing (fun n => stat (dir ++ n)) (typeIn cap exts) filter (n :: names) = [] ∧ rest = []) ∧
          (∀ x, i = some x → (∃ pre, n :: names = pre ++ rest ∧ pre ≠ []) ∧
            listing (fun n => stat (dir ++ n)) (typeIn cap exts) filter (n :: names) =
              x :: listing (fun n => stat (dir ++ n)) (typeIn cap exts) filter rest) := by
      intro e1 e2
      rw [e1, e2]
      refine ⟨i, rest, h1, h2, fun x hx => ?_⟩
      obtain ⟨⟨pre, hp, hp0⟩, hl⟩ := h3 x hx
      exact ⟨⟨n :: pre, by rw [hp]; rfl, by simp⟩, hl⟩
    rw [List.length_append] at hlen
    have hcopy : copy cap n = n := copy_all _ _ (by omega)
    have hpath : entryPath cap dir n = dir ++ n := by
      simp only [entryPath, copy_all cap dir (by omega)]
      exact cat_room _ _ _ (by omega)
    by_cases hdot : n.head? = some 0x2E
    · apply skipped
      · simp [listing, hdot]
      · rw [enumDir, if_pos hdot]
    · obtain ⟨st, hst⟩ := Option.isSome_iff_exists.1 (hst.resolve_left hdot)
      by_cases hd : st.isDir = true
      · refine ⟨some ⟨n, toDate st.mtime, 0x44, none⟩, names, ?_, by simp, ?_⟩
        · rw [enumDir, if_neg hdot, hpath, hst]; simp only [hd, if_true, hcopy]
        · intro x hx
          cases hx
          exact ⟨⟨[n], rfl, by simp⟩, by simp [listing, hdot, hst, hd]⟩
      · obtain ⟨t, ht⟩ := checkExts_ok cap hcap n exts hsl
        have htt : typeIn cap exts n = t := by simp [typeIn, ht]
        by_cases hf : t = 0 ∧ filter = true
        · apply skipped
          · simp [listing, hdot, hst, hd, htt, hf.1, hf.2]
          · rw [enumDir, if_neg hdot, hpath, hst]; simp [hd, hcopy, ht, Out.bind, hf.1, hf.2]
        · refine ⟨some ⟨n, toDate st.mtime, t, some st.size⟩, names, ?_, by simp, ?_⟩
          · rw [enumDir, if_neg hdot, hpath, hst]; simp only [hd, hcopy, ht, Out.bind, if_neg hf]; rfl
          · intro x hx
            cases hx
            refine ⟨⟨[n], rfl, by simp⟩, ?_⟩
            have hf' : ¬ (filter = true ∧ t = 0) := fun h => hf ⟨h.2, h.1⟩
            simp only [listing, List.filterMap_cons, hdot, if_false, hst, Option.bind_some, hd, htt, if_neg hf']
            rfl

/-- C222. Listing a directory: asking for entries until there are no more gives the visible entries in the order the system names them,
directories always, files with size, date and type, and with the filter only files of a type in the list. This holds when the paths fit
their buffer and the system has data for every visible entry. -/
theorem C222_listing_partial (cap : Nat) (hcap : 5 ≤ cap) (stat : Str → Option Stat) (path exts : Str) (filter : Bool) (names : List Str)
    (hp : path ≠ []) (hf : ∀ n ∈ names, n ≠ [] ∧ 0x2F ∉ n ∧ path.length + 1 + n.length < cap)
    (hst : ∀ n ∈ names, n.head? = some 0x2E ∨ (stat (path ++ (if path.getLast? = some 0x2F then [] else [0x2F]) ++ n)).isSome)
    (hpl : path.length + 1 < cap) :
    listDir cap stat (dirPath cap path) exts filter (names.length + 1) names =
      .ok (listing (fun n => stat (path ++ (if path.getLast? = some 0x2F then [] else [0x2F]) ++ n)) (typeIn cap exts) filter names) := by
  have hd : dirPath cap path = path ++ (if path.getLast? = some 0x2F then [] else [0x2F]) := by
    simp only [dirPath, if_neg hp, copy_all cap path (by omega), addDelim]
    split
    · simp
    · exact cat_room _ _ _ (by simpa using hpl)
  rw [hd]
  generalize hdir : path ++ (if path.getLast? = some 0x2F then [] else [0x2F]) = dir at *
  have hdl : dir.length ≤ path.length + 1 := by
    rw [← hdir, List.length_append]; split <;> simp
  have main : ∀ (fuel : Nat) (names : List Str), names.length < fuel →
      (∀ n ∈ names, n ≠ [] ∧ 0x2F ∉ n ∧ (dir ++ n).length < cap ∧ (n.head? = some 0x2E ∨ (stat (dir ++ n)).isSome)) →
      listDir cap stat dir exts filter fuel names = .ok (listing (fun n => stat (dir ++ n)) (typeIn cap exts) filter names) := by
    intro fuel
    induction fuel with
    | zero => intro names h; omega
    | succ fuel ih =>
      intro names hl h
      obtain ⟨i, rest, h1, h2, h3⟩ := enumDir_spec cap stat dir exts filter hcap names h
      cases i with
      | none => simp [listDir, h1, Out.bind, (h2 rfl).1]
      | some x =>
        obtain ⟨⟨pre, hpre, hne⟩, hx⟩ := h3 x rfl
        have hlen : rest.length < fuel := by
          have : 0 < pre.length := List.length_pos_iff.2 hne
          rw [hpre, List.length_append] at hl; omega
        have := ih rest hlen fun n hn => h n (by rw [hpre]; exact List.mem_append_right _ hn)
        simp [listDir, h1, Out.bind, this, hx]
  refine main _ names (by omega) fun n hn => ⟨(hf n hn).1, (hf n hn).2.1, ?_, hst n hn⟩
  have := (hf n hn).2.2
  rw [List.length_append]; omega

/-- C222. Without a path the root is listed. -/
theorem C222_root (cap : Nat) (hcap : 5 ≤ cap) (stat : Str → Option Stat) (exts : Str) (filter : Bool) (names : List Str)
    (hf : ∀ n ∈ names, n ≠ [] ∧ 0x2F ∉ n ∧ 2 + n.length < cap)
    (hst : ∀ n ∈ names, n.head? = some 0x2E ∨ (stat (0x2F :: n)).isSome) :
    listDir cap stat (dirPath cap []) exts filter (names.length + 1) names =
      .ok (listing (fun n => stat (0x2F :: n)) (typeIn cap exts) filter names) := by
  have h := C222_listing_partial cap hcap stat [0x2F] exts filter names (by simp) (fun n hn => hf n hn) (fun n hn => hst n hn)
    (by simp; omega)
  exact h

/-- C222 does not hold for entries the system has no data for, as links that lead nowhere: the values are undefined. And where a path
does not fit the buffer, the entry gets the data of another file: here `abc` in a buffer of five has that of `/d/a`. -/
theorem C222_counterexample :
    (listDir 100 (fun _ => none) (dirPath 100 (lit "/d")) (lit "mkv:V") false 2 [lit "link"] = .bad) ∧
    (let stat := fun p => if p = lit "/d/a" then some ⟨true, 0, 0⟩ else if p = lit "/d/abc" then some ⟨false, 7, 0⟩ else none
     listDir 5 stat (dirPath 5 (lit "/d")) [] false 2 [lit "abc"] = .ok [⟨lit "abc", toDate 0, 0x44, none⟩]) := by
  decide +kernel

/-- A directory with a hidden file, a film, a text and a directory. -/
def exStat (p : Str) : Option Stat :=
  if p = lit "/d/a.mkv" then some ⟨false, 10, 978307300⟩ else if p = lit "/d/b.txt" then some ⟨false, 3, 0⟩
  else if p = lit "/d/sub" then some ⟨true, 4096, 978307200⟩ else none

example : listDir 100 exStat (dirPath 100 (lit "/d")) (lit "mkv:V;mka:A") true 5 [lit ".", lit "b.txt", lit "a.mkv", lit "sub"] =
    .ok [⟨lit "a.mkv", 100, 0x56, some 10⟩, ⟨lit "sub", 1, 0x44, none⟩] := by decide +kernel

example : ∀ n ∈ [lit ".", lit "b.txt", lit "a.mkv", lit "sub"], n ≠ [] ∧ 0x2F ∉ n ∧ (lit "/d").length + 1 + n.length < 100 ∧
    (n.head? = some 0x2E ∨ (exStat (lit "/d" ++ [0x2F] ++ n)).isSome) := by decide +kernel

/-! ### C223 -/

/-- C223 (partial). The date of a moment is the calendar's, whatever calendar it is, and different moments have different dates. The
first second of 2001 is left out. -/
theorem C223_date_partial {α : Type} (cal : Int → Option α) (t : Int) (h : t ≠ 978307200) : datePacked cal (toDate t) = cal t := by
  have e : toDate t = t - 978307200 := by simp only [toDate]; rw [if_neg (by omega)]
  simp only [datePacked, e]
  rw [if_neg (by omega)]
  congr 1; omega

/-- C223 does not hold for the first second of 2001: it is shown as the second one. Else the moments keep their order. -/
theorem C223_counterexample {α : Type} (cal : Int → Option α) : datePacked cal (toDate 978307200) = cal 978307201 := by
  simp [datePacked, toDate]

/-- C223. Dates are never the invalid one and are in the order of the moments. -/
theorem C223_order (s t : Int) : toDate t ≠ 0 ∧ (s ≤ t → toDate s ≤ toDate t) := by
  unfold toDate
  constructor
  · split <;> omega
  · intro h; split <;> split <;> omega

example : datePacked (fun t => if t = 1000000000 then some (2001, 9, 9) else none) (toDate 1000000000) = some (2001, 9, 9) := by decide +kernel

end Verif.FileLibc
