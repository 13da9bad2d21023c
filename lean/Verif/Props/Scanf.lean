import Verif.Core.Scanf
import Verif.Props.Printf
/-! Reading numbers from text, C175 and C176. -/
namespace Verif.Scanf
open Verif Verif.Mkv

/-! ### What a numeral means -/

/-- The number with these digits, the highest first. -/
def value (base : Nat) (ds : List Nat) : Nat := ds.foldl (fun a d => a * base + d) 0

/-- Decimal digits as characters. -/
def decimal (ds : List Nat) : Str := ds.map (· + 48)

/-- `cs` spells the hexadecimal digits `ds`, in upper or lower case. -/
def SpellsHex (cs ds : List Nat) : Prop := cs.map hex = ds.map some

/-- An optional sign. -/
def sign (neg : Bool) : Str := if neg then lit "-" else []

/-- A number with its sign. -/
def signed (neg : Bool) (n : Nat) : Int := if neg then -n else n

/-! ### The loop over the digits -/

theorem foldl_le (base : Nat) (hb : 1 ≤ base) : ∀ (ds : List Nat) (v : Nat), v ≤ ds.foldl (fun a d => a * base + d) v
  | [], v => Nat.le_refl _
  | d :: ds, v => by
    have := foldl_le base hb ds (v * base + d)
    have h : v ≤ v * base := Nat.le_mul_of_pos_right v hb
    simp only [List.foldl_cons]; omega

theorem i64_nat (n : Nat) : i64 (n : Int) = if n < 2 ^ 63 then .ok (n : Int) else .bad := by
  unfold i64
  simp only [Int.reducePow, Nat.reducePow]
  by_cases h : n < 9223372036854775808
  · rw [if_pos h, if_pos (by omega)]
  · rw [if_neg h, if_neg (by omega)]

theorem bind_ok {α β : Type} (a : α) (f : α → Out β) : (Out.ok a).bind f = f a := rfl
theorem bind_bad {α β : Type} (f : α → Out β) : (Out.bad : Out α).bind f = .bad := rfl

theorem number_step (m : Nat) (hm : ∀ n : Nat, i64 (n : Int) = if n < m then .ok (n : Int) else .bad)
    (base : Nat) (val : Nat → Option Nat) (s : Str) (c d : Nat) (w : Int) (v : Nat) (hc : val c = some d) (hw : w ≠ 0) :
    number base val (c :: s) w v = if v * base + d < m then number base val s (w - 1) ((v * base + d : Nat) : Int) else .bad := by
  have e1 : ((v : Int) * (base : Int)) = ((v * base : Nat) : Int) := by simp
  have e2 : (((v * base : Nat) : Int) + (d : Int)) = ((v * base + d : Nat) : Int) := by simp
  rw [number, if_neg hw]
  simp only [hc]
  rw [e1, hm]
  by_cases h2 : v * base + d < m
  · have h1 : v * base < m := by omega
    rw [if_pos h1, if_pos h2, bind_ok, e2, hm, if_pos h2, bind_ok]
  · rw [if_neg h2]
    by_cases h1 : v * base < m
    · rw [if_pos h1, bind_ok, e2, hm, if_neg h2, bind_bad]
    · rw [if_neg h1, bind_bad]

/-- `number_digits` with any limit in place of 2^63. -/
theorem number_below (m : Nat) (hm : ∀ n : Nat, i64 (n : Int) = if n < m then .ok (n : Int) else .bad)
    (base : Nat) (hb : 1 ≤ base) (val : Nat → Option Nat) (rest : Str) : ∀ (cs ds : List Nat) (w : Int) (v : Nat),
    cs.map val = ds.map some → (w < 0 ∨ (cs.length : Int) ≤ w) →
    (∀ c, rest.head? = some c → val c = none ∨ w = cs.length) → v < m →
    number base val (cs ++ rest) w v =
      if ds.foldl (fun a d => a * base + d) v < m then .ok ((ds.foldl (fun a d => a * base + d) v : Nat), rest) else .bad
  | [], [], w, v, _, hw, hr, hv => by
    rw [List.foldl_nil, if_pos hv, List.nil_append]
    cases rest with
    | nil => rfl
    | cons c rest =>
      unfold number
      rcases hr c rfl with h | h
      · by_cases h0 : w = 0
        · rw [if_pos h0]
        · rw [if_neg h0, h]
      · rw [if_pos (by simpa using h)]
  | [], d :: ds, _, _, h, _, _, _ => by simp at h
  | c :: cs, [], _, _, h, _, _, _ => by simp at h
  | c :: cs, d :: ds, w, v, h, hw, hr, hv => by
    simp only [List.map_cons, List.cons.injEq] at h
    rw [List.cons_append, number_step m hm base val (cs ++ rest) c d w v h.1 (by simp only [List.length_cons] at hw; omega), List.foldl_cons]
    by_cases h2 : v * base + d < m
    · rw [if_pos h2]
      exact number_below m hm base hb val rest cs ds (w - 1) (v * base + d) h.2
        (by simp only [List.length_cons] at hw; omega)
        (fun c hc => (hr c hc).imp id (fun h => by simp only [List.length_cons] at h; omega)) h2
    · rw [if_neg h2, if_neg]
      have := foldl_le base hb ds (v * base + d)
      omega

theorem number_digits (base : Nat) (hb : 1 ≤ base) (val : Nat → Option Nat) (rest cs ds : Str) (w : Int) (v : Nat)
    (h1 : cs.map val = ds.map some) (h2 : w < 0 ∨ (cs.length : Int) ≤ w)
    (h3 : ∀ c, rest.head? = some c → val c = none ∨ w = cs.length) (h4 : v < 2 ^ 63) :
    number base val (cs ++ rest) w v =
      if ds.foldl (fun a d => a * base + d) v < 2 ^ 63 then .ok ((ds.foldl (fun a d => a * base + d) v : Nat), rest) else .bad :=
  number_below (2 ^ 63) i64_nat base hb val rest cs ds w v h1 h2 h3 h4

theorem digit_decimal (d : Nat) (h : d < 10) : digit (d + 48) = some d := by
  unfold digit; rw [if_pos (by omega)]; simp

theorem decimal_val (ds : List Nat) (h : ∀ d ∈ ds, d < 10) : (decimal ds).map digit = ds.map some := by
  unfold decimal
  rw [List.map_map]
  exact List.map_congr_left fun d hd => digit_decimal d (h d hd)

theorem dropWhile_spaces (ws s : Str) (hw : ∀ c ∈ ws, isSpace c = true) (hs : ∀ c, s.head? = some c → isSpace c = false) :
    (ws ++ s).dropWhile isSpace = s := by
  rw [List.dropWhile_append_of_pos (by simpa using hw)]
  cases s with
  | nil => rfl
  | cons c s => rw [List.dropWhile_cons, if_neg (by simp [hs c rfl])]

theorem convert_text (base : Nat) (hb : 1 ≤ base) (val : Nat → Option Nat) (sw : Bool) (w : Int) (ws cs ds rest : Str) (neg : Bool)
    (hw : ∀ c ∈ ws, isSpace c = true) (hv : cs.map val = ds.map some) (hlen : w < 0 ∨ (cs.length : Int) ≤ w ∧ (neg = true → sw = false))
    (hr : ∀ c, rest.head? = some c → val c = none ∧ (cs = [] → neg = false → isSpace c = false ∧ c ≠ 0x2D) ∨ w = cs.length ∧ cs ≠ [])
    (hval : ∀ c, (val c).isSome → isSpace c = false ∧ c ≠ 0x2D) :
    convert base val sw w (ws ++ sign neg ++ cs ++ rest) =
      if value base ds < 2 ^ 63 then .ok (if cs = [] ∧ neg = false then none else some (signed neg (value base ds), rest)) else .bad := by
  have hval' : ∀ c ∈ cs, isSpace c = false ∧ c ≠ 0x2D := by
    intro c hc
    apply hval
    have : val c ∈ ds.map some := by rw [← hv]; exact List.mem_map_of_mem hc
    obtain ⟨d, _, e⟩ := List.mem_map.1 this
    rw [← e]; rfl
  have hd : (ws ++ sign neg ++ cs ++ rest).dropWhile isSpace = sign neg ++ cs ++ rest := by
    rw [List.append_assoc, List.append_assoc, List.append_assoc, ← List.append_assoc (sign neg)]
    apply dropWhile_spaces ws _ hw
    intro c hc
    cases neg with
    | true => simp [sign, lit] at hc; rw [← hc]; rfl
    | false =>
      simp only [sign, Bool.false_eq_true, if_false, List.nil_append] at hc
      cases cs with
      | nil =>
        rcases hr c (by simpa using hc) with h | h
        · exact (h.2 rfl rfl).1
        · exact absurd rfl h.2
      | cons x cs => simp at hc; rw [← hc]; exact (hval' x (by simp)).1
  unfold convert
  simp only [hd]
  have hn : ((sign neg ++ cs ++ rest).head? = some 0x2D) ↔ neg = true := by
    cases neg with
    | true => simp [sign, lit]
    | false =>
      simp only [sign, Bool.false_eq_true, if_false, List.nil_append, iff_false]
      cases cs with
      | nil =>
        intro h
        rcases hr _ (by simpa using h) with h' | h'
        · exact (h'.2 rfl rfl).2 rfl
        · exact h'.2 rfl
      | cons x cs => simp; exact (hval' x (by simp)).2
  have ht : (if (sign neg ++ cs ++ rest).head? = some 0x2D then (sign neg ++ cs ++ rest).drop 1 else sign neg ++ cs ++ rest) = cs ++ rest := by
    cases neg with
    | true => rw [if_pos (hn.2 rfl)]; simp [sign, lit]
    | false => rw [if_neg (by rw [hn]; simp)]; simp [sign]
  rw [ht]
  have hnum := number_digits base hb val rest cs ds (if (sign neg ++ cs ++ rest).head? = some 0x2D ∧ sw = true then w - 1 else w) 0 hv
    (by simp only [hn]; split <;> rename_i h <;> grind)
    (by
      intro c hc
      simp only [hn]
      rcases hr c hc with h | h
      · exact .inl h.1
      · right
        rw [if_neg, h.1]
        intro h'
        rcases hlen with hl | hl
        · omega
        · rw [hl.2 h'.1] at h'; simp at h') (by decide)
  rw [show (0 : Int) = ((0 : Nat) : Int) from rfl, hnum]
  change (if value base ds < 2 ^ 63 then _ else _ : Out _).bind _ = _
  by_cases hlt : value base ds < 2 ^ 63
  · rw [if_pos hlt, if_pos hlt]
    simp only [Out.bind]
    have hlen2 : (rest.length = (sign neg ++ cs ++ rest).length) ↔ (cs = [] ∧ neg = false) := by
      cases neg <;> simp [sign, lit, List.length_append] <;> try omega
    cases neg with
    | true =>
      rw [if_pos (hn.2 rfl)]
      have : i64 (-((value base ds : Nat) : Int)) = .ok (-((value base ds : Nat) : Int)) := by
        unfold i64
        rw [if_pos]
        simp only [Int.reducePow, Nat.reducePow] at *
        omega
      change (i64 (-((value base ds : Nat) : Int))).bind _ = _
      rw [this]
      simp only [Out.bind]
      rw [if_neg (by rw [hlen2]; simp), if_neg (by simp)]
      rfl
    | false =>
      rw [if_neg (by rw [hn]; simp)]
      simp only [hlen2]
      rfl
  · rw [if_neg hlt, if_neg hlt]; rfl

theorem digit_plain (c : Nat) (h : (digit c).isSome) : isSpace c = false ∧ c ≠ 0x2D := by
  unfold digit at h
  split at h
  · rename_i hc
    refine ⟨?_, by omega⟩
    unfold isSpace
    simp; omega
  · simp at h

theorem hex_plain (c : Nat) (h : (hex c).isSome) : isSpace c = false ∧ c ≠ 0x2D := by
  have hc : 48 ≤ c ∧ c ≤ 57 ∨ 97 ≤ c ∧ c ≤ 102 ∨ 65 ≤ c ∧ c ≤ 70 := by
    unfold hex at h
    grind
  refine ⟨?_, by omega⟩
  unfold isSpace
  simp; omega

/-! ### The masks in use -/

theorem scanf_d (c : Nat) (s : Str) : scanf (c :: s) (lit "%d") =
    (convert 10 digit false (-1) (c :: s)).bind fun x => .ok (match x with | none => [] | some r => [.int (low32 r.1)]) := by
  simp only [scanf, show lit "%d" = [0x25, 0x64] from rfl, List.length_cons, List.length_nil, loop, if_true]
  simp only [show width [0x64] = (-1, [0x64]) from rfl, show List.takeWhile (· == 0x6C) [0x64] = [] from rfl]
  simp [loop]
  congr 1
  funext x
  cases x with
  | none => simp [loop]
  | some r => obtain ⟨v, t⟩ := r; cases t <;> simp [loop]

theorem scanf_X (c : Nat) (s : Str) : scanf (c :: s) (lit "%X") =
    (convert 16 hex true (-1) (c :: s)).bind fun x => .ok (match x with | none => [] | some r => [.int (low32 r.1)]) := by
  simp only [scanf, show lit "%X" = [0x25, 0x58] from rfl, List.length_cons, List.length_nil, loop, if_true]
  simp only [show width [0x58] = (-1, [0x58]) from rfl, show List.takeWhile (· == 0x6C) [0x58] = [] from rfl]
  simp [loop]
  congr 1
  funext x
  cases x with
  | none => simp [loop]
  | some r => obtain ⟨v, t⟩ := r; cases t <;> simp [loop]

theorem low32_id (v : Int) (h1 : -2 ^ 31 ≤ v) (h2 : v < 2 ^ 31) : low32 v = v := by
  unfold low32
  simp only [Int.reducePow] at *
  omega

/-- Reading one number with `%d` or `%X`, for the text `stringToInt` passes on. -/
theorem slot_text (base : Nat) (hb : 1 ≤ base) (val : Nat → Option Nat) (sw : Bool) (ws cs ds rest : Str) (neg : Bool)
    (hw : ∀ c ∈ ws, isSpace c = true) (hv : cs.map val = ds.map some)
    (hr : ∀ c, rest.head? = some c → val c = none ∧ (cs = [] → neg = false → isSpace c = false ∧ c ≠ 0x2D))
    (hval : ∀ c, (val c).isSome → isSpace c = false ∧ c ≠ 0x2D) :
    ((convert base val sw (-1) (ws ++ sign neg ++ cs ++ rest)).bind fun x =>
        .ok (match x with | none => [] | some r => [Stored.int (low32 r.1)])).bind (fun out => .ok (slot out 0)) =
      if value base ds < 2 ^ 63 then .ok (low32 (signed neg (value base ds))) else .bad := by
  rw [convert_text base hb val sw (-1) ws cs ds rest neg hw hv (.inl (by decide)) (fun c hc => .inl (hr c hc)) hval]
  by_cases hlt : value base ds < 2 ^ 63
  · rw [if_pos hlt, if_pos hlt, bind_ok, bind_ok]
    by_cases hc : cs = [] ∧ neg = false
    · rw [if_pos hc]
      have : ds = [] := by
        have h := hv; rw [hc.1] at h; simpa using h.symm
      subst this
      rw [hc.2]
      simp [slot, value, signed, low32]
    · rw [if_neg hc]
      simp [slot]
  · rw [if_neg hlt, if_neg hlt, bind_bad, bind_bad]

theorem slot_nil : ((Out.ok [] : Out (List Stored)).bind fun out => .ok (slot out 0)) = .ok 0 := rfl

/-- C175. What `StringToInt` makes of any text: blanks, perhaps a minus sign, decimal digits and anything behind them
give the number (0 without digits), reduced to 32 bits; numbers of 2^63 and more are undefined behaviour. -/
theorem C175_reads_decimal (ws ds rest : Str) (neg : Bool) (hw : ∀ c ∈ ws, isSpace c = true) (hd : ∀ d ∈ ds, d < 10)
    (hr : ∀ c, rest.head? = some c → digit c = none ∧ (ds = [] → neg = false → isSpace c = false ∧ c ≠ 0x2D)) :
    stringToInt (ws ++ sign neg ++ decimal ds ++ rest) 0 =
      if value 10 ds < 2 ^ 63 then .ok (low32 (signed neg (value 10 ds))) else .bad := by
  have key := slot_text 10 (by decide) digit false ws (decimal ds) ds rest neg hw (decimal_val ds hd)
    (fun c hc => ⟨(hr c hc).1, fun h => (hr c hc).2 (by simpa [decimal] using h)⟩) digit_plain
  rw [← key]
  simp only [stringToInt]
  cases hs : ws ++ sign neg ++ decimal ds ++ rest with
  | nil => rfl
  | cons c s =>
    have := scanf_d c s
    simp only [show lit "%d" = [0x25, 0x64] from rfl] at this
    simp [lit, this]

/-- C175: every text is of the form of `C175_reads_decimal`. -/
theorem C175_every_text (s : Str) : ∃ ws ds rest neg, s = ws ++ sign neg ++ decimal ds ++ rest ∧ (∀ c ∈ ws, isSpace c = true) ∧
    (∀ d ∈ ds, d < 10) ∧ ∀ c, rest.head? = some c → digit c = none ∧ (ds = [] → neg = false → isSpace c = false ∧ c ≠ 0x2D) := by
  have split : ∀ t : Str, ∃ ds rest, t = decimal ds ++ rest ∧ (∀ d ∈ ds, d < 10) ∧ ∀ c, rest.head? = some c → digit c = none := by
    intro t
    induction t with
    | nil => exact ⟨[], [], rfl, by simp, by simp⟩
    | cons c t ih =>
      by_cases hc : 48 ≤ c ∧ c ≤ 57
      · obtain ⟨ds, rest, e, h1, h2⟩ := ih
        refine ⟨(c - 48) :: ds, rest, ?_, ?_, h2⟩
        · simp only [decimal, List.map_cons, List.cons_append] at e ⊢
          rw [← e, show c - 48 + 48 = c from by omega]
        · intro d hd
          rcases List.mem_cons.1 hd with rfl | hd
          · omega
          · exact h1 d hd
      · refine ⟨[], c :: t, rfl, by simp, ?_⟩
        intro x hx
        simp at hx
        subst hx
        unfold digit
        rw [if_neg hc]
  have hsp : s = s.takeWhile isSpace ++ s.dropWhile isSpace := (List.takeWhile_append_dropWhile).symm
  have hw : ∀ c ∈ s.takeWhile isSpace, isSpace c = true := fun c hc => (List.all_eq_true.1 List.all_takeWhile) c hc
  cases ht : s.dropWhile isSpace with
  | nil => exact ⟨s.takeWhile isSpace, [], [], false, by rw [ht] at hsp; simpa [sign, decimal] using hsp, hw, by simp, by simp⟩
  | cons x t =>
    have hx : isSpace x = false := by
      have := List.head?_dropWhile_not isSpace s
      rw [ht] at this
      simpa using this
    by_cases hm : x = 0x2D
    · obtain ⟨ds, rest, e, h1, h2⟩ := split t
      refine ⟨s.takeWhile isSpace, ds, rest, true, ?_, hw, h1, fun c hc => ⟨h2 c hc, by simp⟩⟩
      rw [ht, e, hm] at hsp
      simpa [sign, lit] using hsp
    · obtain ⟨ds, rest, e, h1, h2⟩ := split (x :: t)
      refine ⟨s.takeWhile isSpace, ds, rest, false, ?_, hw, h1, fun c hc => ⟨h2 c hc, fun hd _ => ?_⟩⟩
      · rw [ht, e] at hsp
        simpa [sign] using hsp
      · rw [hd] at e
        simp [decimal] at e
        rw [← e] at hc
        simp at hc
        rw [← hc]
        exact ⟨hx, hm⟩

/-! ### Numbers that were printed -/

theorem digitChar_dec : ∀ d, d < 10 → Printf.digitChar false d = d + 48 := by
  intro d hd
  unfold Printf.digitChar
  rw [if_neg (by omega)]

/-- Digits printed spell the number. -/
theorem printed_decimal : ∀ n : Nat, ∃ ds, Printf.digitsText 10 false n = decimal ds ∧ (∀ d ∈ ds, d < 10) ∧ value 10 ds = n ∧ ds ≠ [] := by
  intro n
  induction n using Nat.strongRecOn with
  | ind n ih =>
    by_cases h : n < 10
    · refine ⟨[n], ?_, by simpa using h, by simp [value], by simp⟩
      rw [Printf.digitsText_small 10 false n h (by decide), digitChar_dec n h]
      rfl
    · obtain ⟨ds, e, h1, h2, _⟩ := ih (n / 10) (by omega)
      refine ⟨ds ++ [n % 10], ?_, ?_, ?_, by simp⟩
      · rw [Printf.digitsText_big 10 false n (by decide) (by omega) (by decide), e, digitChar_dec _ (by omega)]
        simp [decimal]
      · intro d hd
        rcases List.mem_append.1 hd with hd | hd
        · exact h1 d hd
        · have : d = n % 10 := by simpa using hd
          omega
      · have : value 10 (ds ++ [n % 10]) = value 10 ds * 10 + n % 10 := by simp [value]
        rw [this, h2]
        omega

theorem hex_digitChar : ∀ d, d < 16 → hex (Printf.digitChar true d) = some d := by decide +kernel

theorem printed_hex : ∀ n : Nat, ∃ ds, SpellsHex (Printf.digitsText 16 true n) ds ∧ (∀ d ∈ ds, d < 16) ∧ value 16 ds = n ∧ ds ≠ [] := by
  intro n
  induction n using Nat.strongRecOn with
  | ind n ih =>
    by_cases h : n < 16
    · refine ⟨[n], ?_, by simpa using h, by simp [value], by simp⟩
      rw [Printf.digitsText_small 16 true n h (by decide)]
      simp [SpellsHex, hex_digitChar n h]
    · obtain ⟨ds, e, h1, h2, _⟩ := ih (n / 16) (by omega)
      refine ⟨ds ++ [n % 16], ?_, ?_, ?_, by simp⟩
      · rw [Printf.digitsText_big 16 true n (by decide) (by omega) (by decide)]
        unfold SpellsHex at e ⊢
        rw [List.map_append, e]
        simp [hex_digitChar (n % 16) (by omega)]
      · intro d hd
        rcases List.mem_append.1 hd with hd | hd
        · exact h1 d hd
        · have : d = n % 16 := by simpa using hd
          omega
      · have : value 16 (ds ++ [n % 16]) = value 16 ds * 16 + n % 16 := by simp [value]
        rw [this, h2]
        omega

theorem value_zeros (base : Nat) (k : Nat) (ds : List Nat) : value base (List.replicate k 0 ++ ds) = value base ds := by
  unfold value
  rw [List.foldl_append]
  have : List.foldl (fun a d => a * base + d) 0 (List.replicate k 0) = 0 := by
    induction k with
    | zero => rfl
    | succ k ih => simpa [List.replicate_succ] using ih
  rw [this]

/-- Eight hexadecimal digits, zeros in front. -/
theorem printed_hex8 (n : Nat) (hn : n < 2 ^ 32) : ∃ ds, SpellsHex (Printf.numText true 8 false (Printf.digitsText 16 true n)) ds ∧
    value 16 ds = n ∧ (Printf.numText true 8 false (Printf.digitsText 16 true n)).length = 8 := by
  obtain ⟨ds, e, _, h2, _⟩ := printed_hex n
  have hl : (Printf.digitsText 16 true n).length ≤ 8 := (Printf.digitsText_le 16 true n 8 (by decide) (by decide)).2 (by
    simpa using hn)
  refine ⟨List.replicate (8 - (Printf.digitsText 16 true n).length) 0 ++ ds, ?_, ?_, ?_⟩
  · unfold SpellsHex at e ⊢
    simp only [Printf.numText, if_true, Bool.false_eq_true, if_false, List.nil_append, List.length_nil, Nat.zero_add, List.map_append, e,
      List.map_replicate]
    rfl
  · rw [value_zeros, h2]
  · simp only [Printf.numText, if_true, Bool.false_eq_true, if_false, List.nil_append, List.length_nil, Nat.zero_add, List.length_append,
      List.length_replicate]
    omega

theorem mask_d (v : Int) : Printf.mask [.dir {} (.dec v)] = lit "%d" := rfl
theorem mask_x8 (v : Int) : Printf.mask [.lit 0x30, .lit 0x78, .dir { zero := true, ws := [8] } (.hex true v)] = lit "0x%08X" := rfl
theorem mask_x88 (v w : Int) : Printf.mask [.lit 0x30, .lit 0x78, .dir { zero := true, ws := [8] } (.hex true v),
    .dir { zero := true, ws := [8] } (.hex true w)] = lit "0x%08X%08X" := rfl

theorem fits_plain (n : Nat) (ps : List Printf.Piece) (h : ∀ p ∈ ps, ¬ p.RightAligned) : Printf.Fits n ps := by
  intro pre p post e hr
  exact absurd hr (h p (by rw [e]; simp))

/-- C175. A number printed by `IntToString` in a buffer with room is read back by `StringToInt`: in decimal every `int`,
whether the mode is asked for or found out. -/
theorem C175_decimal_round_trip (n : Nat) (h1 : 12 ≤ n) (hn : n < 2 ^ 64) (v : Int) (hlo : -2 ^ 31 ≤ v) (hhi : v < 2 ^ 31) :
    ∃ t, intToString n v false = .done (t ++ [0]) ∧ stringToInt t 0 = .ok v ∧ stringToInt t (-1) = .ok v := by
  obtain ⟨ds, e, d1, d2, d3⟩ := printed_decimal v.natAbs
  have hle : (Printf.digitsText 10 false v.natAbs).length ≤ 10 := (Printf.digitsText_le 10 false v.natAbs 10 (by decide) (by decide)).2 (by
    simp only [Int.reducePow] at *; omega)
  have hp := Printf.C93_documented_text n (by omega) hn [.dir {} (.dec v)] (by
      intro p hp; simp at hp; subst hp; simp [Printf.Piece.WF])
    (by
      intro p hp; simp at hp; subst hp
      simp only [Printf.Piece.InRange]
      refine ⟨trivial, ?_, by decide, by simp⟩
      simp only [Int.reducePow] at *; omega)
    (fits_plain _ _ (by intro p hp; simp at hp; subst hp; simp [Printf.Piece.RightAligned]))
  have ht : Printf.text [.dir {} (.dec v)] = sign (decide (v < 0)) ++ decimal ds := by
    simp [Printf.text, Printf.Piece.text, Printf.Conv.text, Printf.numText, Printf.Spec.width, e, sign, lit]
  have hsv : signed (decide (v < 0)) (value 10 ds) = v := by
    rw [d2]
    unfold signed
    by_cases h : v < 0
    · rw [if_pos (by simpa using h)]; omega
    · rw [if_neg (by simpa using h)]; omega
  have hr0 : stringToInt (sign (decide (v < 0)) ++ decimal ds) 0 = .ok v := by
    have := C175_reads_decimal [] ds [] (decide (v < 0)) (by simp) d1 (by simp)
    simp only [List.nil_append, List.append_nil] at this
    rw [this, if_pos (by rw [d2]; simp only [Int.reducePow, Nat.reducePow] at *; omega), hsv, low32_id v hlo hhi]
  refine ⟨sign (decide (v < 0)) ++ decimal ds, ?_, hr0, ?_⟩
  · unfold intToString
    rw [if_neg (by simp), ← mask_d v]
    change Printf.printf n _ (Printf.args [.dir {} (.dec v)]) = _
    rw [hp, ht, List.take_of_length_le]
    rw [e] at hle
    have : (sign (decide (v < 0))).length ≤ 1 := by unfold sign; split <;> simp [lit]
    rw [List.length_append]
    omega
  · rw [← hr0]
    have hd : (sign (decide (v < 0)) ++ decimal ds).dropWhile isSpace = sign (decide (v < 0)) ++ decimal ds := by
      have := dropWhile_spaces [] (sign (decide (v < 0)) ++ decimal ds) (by simp) (by
        intro c hc
        by_cases h : v < 0
        · simp [sign, lit, h] at hc; rw [← hc]; rfl
        · simp [sign, h] at hc
          cases ds with
          | nil => simp [decimal] at hc
          | cons d ds =>
            simp [decimal] at hc
            exact (digit_plain c (by rw [← hc, digit_decimal d (d1 d (by simp))]; rfl)).1)
      simpa using this
    have h2 : (sign (decide (v < 0)) ++ decimal ds).take 2 ≠ lit "0x" := by
      intro h
      have hx : 0x78 ∈ (sign (decide (v < 0)) ++ decimal ds) := List.mem_of_mem_take (i := 2) (by rw [h]; decide)
      rcases List.mem_append.1 hx with hx | hx
      · unfold sign at hx
        split at hx
        · simp [lit] at hx
        · simp at hx
      · simp only [decimal, List.mem_map] at hx
        obtain ⟨d, hd, he⟩ := hx
        have := d1 d hd
        omega
    simp only [stringToInt, hd]
    simp [h2]

theorem spells_length {cs ds : List Nat} (h : SpellsHex cs ds) : cs.length = ds.length := by
  have := congrArg List.length h
  simpa using this

theorem value_lt (base : Nat) (hb : 1 ≤ base) : ∀ (ds : List Nat), (∀ d ∈ ds, d < base) → value base ds < base ^ ds.length := by
  have key : ∀ (ds : List Nat) (v : Nat), (∀ d ∈ ds, d < base) → ds.foldl (fun a d => a * base + d) v < (v + 1) * base ^ ds.length := by
    intro ds
    induction ds with
    | nil => intro v _; simp
    | cons d ds ih =>
      intro v h
      have h1 := ih (v * base + d) fun x hx => h x (by simp [hx])
      have h2 : d < base := h d (by simp)
      simp only [List.foldl_cons, List.length_cons]
      calc _ < (v * base + d + 1) * base ^ ds.length := h1
        _ ≤ ((v + 1) * base) * base ^ ds.length := Nat.mul_le_mul_right _ (by rw [Nat.add_mul]; omega)
        _ = (v + 1) * base ^ (ds.length + 1) := by rw [Nat.pow_succ, Nat.mul_assoc, Nat.mul_comm base]
  intro ds h
  have := key ds 0 h
  simpa [value] using this

theorem spells_lt {cs ds : List Nat} (h : SpellsHex cs ds) : ∀ d ∈ ds, d < 16 := by
  intro d hd
  have : some d ∈ cs.map hex := by rw [h]; exact List.mem_map_of_mem hd
  obtain ⟨c, _, e⟩ := List.mem_map.1 this
  unfold hex at e
  grind

theorem hex8_lt {cs ds : List Nat} (h : SpellsHex cs ds) (hl : cs.length = 8) : value 16 ds < 2 ^ 63 := by
  have := value_lt 16 (by decide) ds (spells_lt h)
  rw [← spells_length h, hl] at this
  simp only [Nat.reducePow] at *
  omega

theorem convert_hex8 (cs ds rest : Str) (h : SpellsHex cs ds) (hl : cs.length = 8) :
    convert 16 hex true 8 (cs ++ rest) = .ok (some (value 16 ds, rest)) := by
  have hne : cs ≠ [] := by intro h; simp [h] at hl
  have := convert_text 16 (by decide) hex true 8 [] cs ds rest false (by simp) h (.inr ⟨by omega, by simp⟩)
    (fun c hc => .inr ⟨by omega, hne⟩) hex_plain
  simp only [sign, Bool.false_eq_true, if_false, List.nil_append] at this
  rw [this, if_pos (hex8_lt h hl), if_neg (by simp [hne])]
  rfl

theorem loop_x8 (fuel : Nat) (i : Nat) (s m : Str) (out : List Stored) :
    loop (fuel + 1) (some (i :: s)) false (0x25 :: 0x38 :: 0x78 :: m) out =
      (convert 16 hex true 8 (i :: s)).bind fun x =>
        match x with
        | none => loop fuel none false m out
        | some (v, s') => loop fuel (some s') false m (out ++ [.int (low32 v)]) := by
  have hw : width (0x38 :: 0x78 :: m) = (8, 0x78 :: m) := by
    have : List.takeWhile (fun c => (digit c).isSome) (0x38 :: 0x78 :: m) = [0x38] := by
      rw [List.takeWhile_cons, if_pos (by decide), List.takeWhile_cons, if_neg (by decide)]
    simp only [width, this]
    rfl
  have hl : List.takeWhile (fun x => x == 0x6C) (0x78 :: m) = [] := by
    rw [List.takeWhile_cons, if_neg (by decide)]
  rw [loop, if_pos rfl]
  simp only [hw, hl]
  simp
  congr 1

theorem scanf_88 (a b da db : Str) (ha : SpellsHex a da) (hb : SpellsHex b db) (la : a.length = 8) (lb : b.length = 8) :
    scanf (lit "0x" ++ a ++ b) (lit "0x%8x%8x") = .ok [.int (low32 (value 16 da)), .int (low32 (value 16 db))] := by
  have e : lit "0x" ++ a ++ b = 0x30 :: 0x78 :: (a ++ b) := by simp [lit]
  rw [e, scanf, show lit "0x%8x%8x" = [0x30, 0x78, 0x25, 0x38, 0x78, 0x25, 0x38, 0x78] from rfl]
  simp only [List.length_cons, List.length_nil]
  rw [loop, if_neg (by decide), if_neg (by decide), if_pos rfl]
  rw [loop, if_neg (by decide), if_neg (by decide), if_pos rfl]
  obtain ⟨x, a', rfl⟩ : ∃ x a', a = x :: a' := by cases a with | nil => simp at la | cons x a' => exact ⟨x, a', rfl⟩
  rw [List.cons_append, loop_x8, ← List.cons_append, convert_hex8 _ da b ha la, bind_ok]
  obtain ⟨y, b', rfl⟩ : ∃ y b', b = y :: b' := by cases b with | nil => simp at lb | cons y b' => exact ⟨y, b', rfl⟩
  have := convert_hex8 _ db [] hb lb
  rw [List.append_nil] at this
  simp only
  rw [loop_x8, this, bind_ok]
  rfl

/-- C175, hexadecimal: numbers that are not negative are read back. -/
theorem C175_hex_round_trip (n : Nat) (h1 : 11 ≤ n) (hn : n < 2 ^ 64) (v : Int) (hlo : 0 ≤ v) (hhi : v < 2 ^ 31) :
    ∃ t, intToString n v true = .done (t ++ [0]) ∧ stringToInt t (-1) = .ok v := by
  have hv32 : v.natAbs < 2 ^ 32 := by simp only [Int.reducePow, Nat.reducePow] at *; omega
  obtain ⟨ds, e, d2, d3⟩ := printed_hex8 v.natAbs hv32
  have hp := Printf.C93_documented_text n (by omega) hn [.lit 0x30, .lit 0x78, .dir { zero := true, ws := [8] } (.hex true v)] (by
      intro p hp; simp at hp; rcases hp with rfl | rfl | rfl <;> simp [Printf.Piece.WF])
    (by
      intro p hp; simp at hp; rcases hp with rfl | rfl | rfl
      · trivial
      · trivial
      simp only [Printf.Piece.InRange]
      refine ⟨trivial, hlo, ?_, by decide⟩
      simp only [Int.reducePow] at *; omega)
    (fits_plain _ _ (by intro p hp; simp at hp; rcases hp with rfl | rfl | rfl <;> simp [Printf.Piece.RightAligned]))
  have ht : Printf.text [.lit 0x30, .lit 0x78, .dir { zero := true, ws := [8] } (.hex true v)] =
      lit "0x" ++ Printf.numText true 8 false (Printf.digitsText 16 true v.natAbs) := by
    simp [Printf.text, Printf.Piece.text, Printf.Conv.text, Printf.Spec.width, lit]
  refine ⟨lit "0x" ++ Printf.numText true 8 false (Printf.digitsText 16 true v.natAbs), ?_, ?_⟩
  · unfold intToString
    rw [if_pos rfl, ← mask_x8 v]
    change Printf.printf n _ (Printf.args [.lit 0x30, .lit 0x78, .dir { zero := true, ws := [8] } (.hex true v)]) = _
    rw [hp, ht, List.take_of_length_le]
    rw [List.length_append, d3]
    simp [lit]; omega
  · generalize hg : Printf.numText true 8 false (Printf.digitsText 16 true v.natAbs) = g at *
    have hne : g ≠ [] := by intro h; simp [h] at d3
    have hd : (lit "0x" ++ g).dropWhile isSpace = lit "0x" ++ g := by simp [lit, isSpace]
    have h2 : (lit "0x" ++ g).take 2 = lit "0x" := by simp [lit]
    have h3 : (lit "0x" ++ g).drop 2 = g := by simp [lit]
    simp only [stringToInt, hd, h2, h3]
    have key := slot_text 16 (by decide) hex true [] g ds [] false (by simp) e (by simp) hex_plain
    simp only [sign, Bool.false_eq_true, if_false, List.nil_append, List.append_nil] at key
    obtain ⟨c, g', rfl⟩ : ∃ c g', g = c :: g' := by cases g with | nil => exact absurd rfl hne | cons c g' => exact ⟨c, g', rfl⟩
    have hX := scanf_X c g'
    simp only [show lit "%X" = [0x25, 0x58] from rfl] at hX
    rw [d2, if_pos (by simp only [Nat.reducePow] at *; omega)] at key
    have hsv : low32 (signed false v.natAbs) = v := by
      simp only [signed, Bool.false_eq_true, if_false]
      rw [show ((v.natAbs : Nat) : Int) = v from by omega]
      exact low32_id v (by simp only [Int.reducePow]; omega) hhi
    rw [hsv] at key
    rw [← key, ← hX]
    simp [lit]

/-- C175 as a whole: reading is the inverse of printing, and no text is undefined behaviour. -/
def ReadsNumbers : Prop :=
  (∀ n, 12 ≤ n → n < 2 ^ 64 → ∀ (v : Int) (h : Bool), -2 ^ 31 ≤ v → v < 2 ^ 31 →
    ∃ t, intToString n v h = .done (t ++ [0]) ∧ stringToInt t (-1) = .ok v) ∧
  ∀ t m, stringToInt t m ≠ .bad

/-- C175 fails: -1 in hexadecimal is printed as `0x00000006`, and a number of twenty digits overflows. -/
theorem C175_counterexample : ¬ ReadsNumbers ∧ intToString 20 (-1) true = .done (lit "0x00000006" ++ [0]) ∧
    stringToInt (lit "0x00000006") (-1) = .ok 6 ∧ stringToInt (lit "99999999999999999999") 0 = .bad := by
  refine ⟨fun h => ?_, by decide +kernel, by decide +kernel, by decide +kernel⟩
  exact h.2 (lit "99999999999999999999") 0 (by decide +kernel)

/-! ### 64 bits -/

/-- C176. Sixteen hexadecimal digits behind `0x` are read as two halves; the lower half counts as a signed number. -/
theorem C176_reads_hex (a b da db : Str) (ha : SpellsHex a da) (hb : SpellsHex b db) (la : a.length = 8) (lb : b.length = 8) :
    stringToInt64 (lit "0x" ++ a ++ b) = .ok (wrap64 (low32 (value 16 da) * 2 ^ 32 + low32 (value 16 db))) := by
  unfold stringToInt64
  rw [scanf_88 a b da db ha hb la lb, bind_ok]
  rfl

/-- C176: any text that does not begin with `0x` is 0, decimal numbers among them. -/
theorem C176_decimal_is_zero (s : Str) (h : s.take 2 ≠ lit "0x") : stringToInt64 s = .ok 0 := by
  have hs : scanf s (lit "0x%8x%8x") = .ok [] := by
    rw [scanf, show lit "0x%8x%8x" = [0x30, 0x78, 0x25, 0x38, 0x78, 0x25, 0x38, 0x78] from rfl]
    simp only [List.length_cons, List.length_nil]
    cases s with
    | nil => rfl
    | cons c s =>
      rw [loop, if_neg (by decide), if_neg (by decide)]
      by_cases hc : c = 0x30
      · rw [if_pos hc.symm]
        cases s with
        | nil => rfl
        | cons d s =>
          rw [loop, if_neg (by decide), if_neg (by decide), if_neg]
          · rfl
          · intro hd
            apply h
            simp [lit, hc, ← hd]
      · rw [if_neg (fun h => hc h.symm)]
        rfl
  unfold stringToInt64
  rw [hs]
  rfl

theorem hex_lt (c d : Nat) (h : hex c = some d) : d < 16 := by
  unfold hex at h
  grind

/-- At most eight hexadecimal digits do not overflow. -/
theorem number_narrow : ∀ (s : Str) (w v : Nat), w ≤ 8 → v < 16 ^ (8 - w) →
    ∃ (x : Nat) (r : Str), number 16 hex s (w : Int) (v : Int) = .ok ((x : Int), r) ∧ x < 16 ^ 8
  | [], w, v, hw, hv => ⟨v, [], rfl, Nat.lt_of_lt_of_le hv (Nat.pow_le_pow_right (by decide) (by omega))⟩
  | c :: s, w, v, hw, hv => by
    have hb : v < 16 ^ 8 := Nat.lt_of_lt_of_le hv (Nat.pow_le_pow_right (by decide) (by omega))
    by_cases h0 : w = 0
    · exact ⟨v, c :: s, by rw [number, if_pos (by omega)], hb⟩
    · cases hc : hex c with
      | none => exact ⟨v, c :: s, by rw [number, if_neg (by omega)]; simp only [hc], hb⟩
      | some d =>
        have hd := hex_lt c d hc
        have hn : v * 16 + d < 16 ^ (8 - (w - 1)) := by
          rw [show 8 - (w - 1) = (8 - w) + 1 from by omega, Nat.pow_succ]
          omega
        have hlt : v * 16 + d < 2 ^ 63 :=
          Nat.lt_of_lt_of_le hn (Nat.le_trans (Nat.pow_le_pow_right (by decide) (show 8 - (w - 1) ≤ 8 from by omega)) (by decide))
        rw [number_step (2 ^ 63) i64_nat 16 hex s c d w v hc (by omega), if_pos hlt, show ((w : Int) - 1) = ((w - 1 : Nat) : Int) from by omega]
        exact number_narrow s (w - 1) (v * 16 + d) (by omega) hn

theorem convert_narrow (s : Str) : ∃ x, convert 16 hex true 8 s = .ok x := by
  unfold convert
  simp only []
  by_cases hn : (s.dropWhile isSpace).head? = some 0x2D
  · obtain ⟨x, r, e, hx⟩ := number_narrow ((s.dropWhile isSpace).drop 1) 7 0 (by decide) (by decide)
    simp only [hn, if_true, true_and, and_self]
    rw [show (8 : Int) - 1 = ((7 : Nat) : Int) from rfl, show (0 : Int) = ((0 : Nat) : Int) from rfl, e, bind_ok]
    have : i64 (-(x : Int)) = .ok (-(x : Int)) := by
      unfold i64
      rw [if_pos]
      simp only [Int.reducePow, Nat.reducePow] at *
      omega
    simp only [this]
    exact ⟨_, bind_ok _ _⟩
  · obtain ⟨x, r, e, hx⟩ := number_narrow (s.dropWhile isSpace) 8 0 (by decide) (by decide)
    simp only [hn, if_false, false_and]
    rw [show (8 : Int) = ((8 : Nat) : Int) from rfl, show (0 : Int) = ((0 : Nat) : Int) from rfl, e, bind_ok]
    exact ⟨_, bind_ok _ _⟩

/-- C176: no text is undefined behaviour. -/
theorem C176_defined (s : Str) : ∃ v : Int, stringToInt64 s = .ok v := by
  by_cases h : s.take 2 = lit "0x"
  · have hs : ∃ out, scanf s (lit "0x%8x%8x") = .ok out := by
      have e : s = 0x30 :: 0x78 :: s.drop 2 := by
        conv => lhs; rw [← List.take_append_drop 2 s, h]
        rfl
      rw [e]
      generalize s.drop 2 = t
      rw [scanf, show lit "0x%8x%8x" = [0x30, 0x78, 0x25, 0x38, 0x78, 0x25, 0x38, 0x78] from rfl]
      simp only [List.length_cons, List.length_nil]
      rw [loop, if_neg (by decide), if_neg (by decide), if_pos rfl, loop, if_neg (by decide), if_neg (by decide), if_pos rfl]
      cases t with
      | nil => exact ⟨[], rfl⟩
      | cons c t =>
        rw [loop_x8]
        obtain ⟨x, ex⟩ := convert_narrow (c :: t)
        rw [ex, bind_ok]
        match x with
        | none => exact ⟨[], rfl⟩
        | some (v, []) => exact ⟨_, rfl⟩
        | some (v, d :: t') =>
          simp only []
          rw [loop_x8]
          obtain ⟨y, ey⟩ := convert_narrow (d :: t')
          rw [ey, bind_ok]
          match y with
          | none => exact ⟨_, rfl⟩
          | some (v, r) => cases r <;> exact ⟨_, rfl⟩
    obtain ⟨out, ho⟩ := hs
    unfold stringToInt64
    rw [ho, bind_ok]
    exact ⟨_, rfl⟩
  · exact ⟨0, C176_decimal_is_zero s h⟩

theorem low32_of_nat (n : Nat) (h : n < 2 ^ 31) : low32 (n : Int) = n :=
  low32_id _ (by simp only [Int.reducePow]; omega) (by simp only [Int.reducePow, Nat.reducePow] at *; omega)

/-- C176 (partial). In hexadecimal, numbers with both halves below 2^31 are printed and read back. -/
theorem C176_round_trip_partial (n : Nat) (h1 : 19 ≤ n) (hn : n < 2 ^ 64) (hi lo : Nat) (hh : hi < 2 ^ 31) (hl : lo < 2 ^ 31) :
    ∃ t, int64ToString n (hi * 2 ^ 32 + lo) true = .done (t ++ [0]) ∧ stringToInt64 t = .ok (hi * 2 ^ 32 + lo) := by
  obtain ⟨da, ea, va, la⟩ := printed_hex8 hi (by simp only [Nat.reducePow] at *; omega)
  obtain ⟨db, eb, vb, lb⟩ := printed_hex8 lo (by simp only [Nat.reducePow] at *; omega)
  have hdiv : ((hi : Int) * 2 ^ 32 + lo) / 2 ^ 32 = hi := by simp only [Int.reducePow, Nat.reducePow] at *; omega
  have hmod : low32 ((hi : Int) * 2 ^ 32 + lo) = lo := by
    unfold low32
    simp only [Int.reducePow, Nat.reducePow] at *
    omega
  have hp := Printf.C93_documented_text n (by omega) hn [.lit 0x30, .lit 0x78, .dir { zero := true, ws := [8] } (.hex true hi),
      .dir { zero := true, ws := [8] } (.hex true lo)] (by
      intro p hp; simp at hp; rcases hp with rfl | rfl | rfl | rfl <;> simp [Printf.Piece.WF])
    (by
      intro p hp; simp at hp; rcases hp with rfl | rfl | rfl | rfl
      · trivial
      · trivial
      all_goals
        simp only [Printf.Piece.InRange]
        refine ⟨trivial, by omega, ?_, by decide⟩
        simp only [Int.reducePow, Nat.reducePow] at *; omega)
    (fits_plain _ _ (by intro p hp; simp at hp; rcases hp with rfl | rfl | rfl | rfl <;> simp [Printf.Piece.RightAligned]))
  have ht : Printf.text [.lit 0x30, .lit 0x78, .dir { zero := true, ws := [8] } (.hex true hi), .dir { zero := true, ws := [8] } (.hex true lo)] =
      lit "0x" ++ Printf.numText true 8 false (Printf.digitsText 16 true hi) ++ Printf.numText true 8 false (Printf.digitsText 16 true lo) := by
    simp [Printf.text, Printf.Piece.text, Printf.Conv.text, Printf.Spec.width, lit]
  refine ⟨lit "0x" ++ Printf.numText true 8 false (Printf.digitsText 16 true hi) ++
    Printf.numText true 8 false (Printf.digitsText 16 true lo), ?_, ?_⟩
  · unfold int64ToString
    rw [if_neg (by simp), if_pos rfl, hdiv, hmod, low32_of_nat hi hh, ← mask_x88 hi lo]
    change Printf.printf n _ (Printf.args [.lit 0x30, .lit 0x78, .dir { zero := true, ws := [8] } (.hex true hi),
      .dir { zero := true, ws := [8] } (.hex true lo)]) = _
    rw [hp, ht, List.take_of_length_le]
    rw [List.length_append, List.length_append, la, lb]
    simp [lit]; omega
  · rw [C176_reads_hex _ _ da db ea eb la lb, va, vb, low32_of_nat hi hh, low32_of_nat lo hl]
    have hw : wrap64 ((hi : Int) * 2 ^ 32 + lo) = hi * 2 ^ 32 + lo := by
      unfold wrap64
      simp only [Int.reducePow, Nat.reducePow] at *
      omega
    rw [hw]

/-- C176 as a whole: what `Int64ToString` prints is what `StringToInt64` reads. -/
def Reads64 : Prop :=
  ∀ n, 64 ≤ n → n < 2 ^ 64 → ∀ (v : Int) (h : Bool), -2 ^ 63 ≤ v → v < 2 ^ 63 →
    ∃ t, int64ToString n v h = .done (t ++ [0]) ∧ stringToInt64 t = .ok v

/-- C176 fails: 1000000 in decimal is read as 0, 2^31 in hexadecimal as -2^31, and `0xF4240` as 0xF4240 times 2^32. -/
theorem C176_counterexample : ¬ Reads64 ∧ stringToInt64 (lit "1000000") = .ok 0 ∧
    stringToInt64 (lit "0x0000000080000000") = .ok (-2 ^ 31) ∧ stringToInt64 (lit "0xF4240") = .ok (0xF4240 * 2 ^ 32) := by
  refine ⟨fun h => ?_, by decide +kernel, by decide +kernel, by decide +kernel⟩
  obtain ⟨t, h1, h2⟩ := h 64 (by decide) (by decide) 1000000 false (by decide) (by decide)
  have e : int64ToString 64 1000000 false = .done (lit "1000000" ++ [0]) := by decide +kernel
  rw [e] at h1
  have ht : t = lit "1000000" := by
    have := Printf.O.done.inj h1
    exact (List.append_cancel_right this).symm
  rw [ht] at h2
  revert h2
  decide +kernel

/-! ### Characters, octal numbers and widths -/

/-- C175. The characters that count: blanks, and the digits of the three bases, hexadecimal ones in upper and lower case. -/
theorem C175_characters (c d : Nat) : (isSpace c = true ↔ c ∈ [9, 10, 13, 32]) ∧ (digit c = some d ↔ d < 10 ∧ c = d + 48) ∧
    (octal c = some d ↔ d < 8 ∧ c = d + 48) ∧
    (hex c = some d ↔ (lit "0123456789abcdef")[d]? = some c ∨ (lit "0123456789ABCDEF")[d]? = some c) := by
  refine ⟨?_, ?_, ?_, ?_⟩
  · simp only [isSpace, Bool.or_eq_true, beq_iff_eq, List.mem_cons, List.not_mem_nil, or_false]; omega
  · unfold digit; split <;> simp <;> omega
  · unfold octal; split <;> simp <;> omega
  · constructor
    · intro h
      have hc : c < 128 := by unfold hex at h; grind
      have hd : d < 16 := by unfold hex at h; grind
      have key : ∀ c < 128, ∀ d < 16, hex c = some d → (lit "0123456789abcdef")[d]? = some c ∨ (lit "0123456789ABCDEF")[d]? = some c := by
        decide +kernel
      exact key c hc d hd h
    · intro h
      have hd : d < 16 := by
        rcases h with h | h
        · exact (List.getElem?_eq_some_iff.1 h).1
        · exact (List.getElem?_eq_some_iff.1 h).1
      have key : ∀ d < 16, (∀ c ∈ (lit "0123456789abcdef")[d]?, hex c = some d) ∧ (∀ c ∈ (lit "0123456789ABCDEF")[d]?, hex c = some d) := by
        decide +kernel
      rcases h with h | h
      · exact (key d hd).1 c h
      · exact (key d hd).2 c h

theorem octal_plain (c : Nat) (h : (octal c).isSome) : isSpace c = false ∧ c ≠ 0x2D := by
  unfold octal at h
  split at h
  · rename_i hc
    refine ⟨?_, by omega⟩
    unfold isSpace
    simp; omega
  · simp at h

theorem scanf_o (c : Nat) (s : Str) : scanf (c :: s) (lit "%o") =
    (convert 8 octal false (-1) (c :: s)).bind fun x => .ok (match x with | none => [] | some r => [.int (low32 r.1)]) := by
  simp only [scanf, show lit "%o" = [0x25, 0x6F] from rfl, List.length_cons, List.length_nil, loop, if_true]
  simp only [show width [0x6F] = (-1, [0x6F]) from rfl, show List.takeWhile (· == 0x6C) [0x6F] = [] from rfl]
  simp
  congr 1
  funext x
  cases x with
  | none => simp
  | some r => obtain ⟨v, t⟩ := r; cases t <;> simp

/-- C175. `%o` reads octal digits the same way. -/
theorem C175_octal (ws ds rest : Str) (neg : Bool) (hw : ∀ c ∈ ws, c ∈ [9, 10, 13, 32]) (hd : ∀ d ∈ ds, d < 8) (hne : ds ≠ [])
    (hr : ∀ c, rest.head? = some c → c < 48 ∨ 55 < c) :
    scanf (ws ++ sign neg ++ decimal ds ++ rest) (lit "%o") =
      if value 8 ds < 2 ^ 63 then .ok [.int (low32 (signed neg (value 8 ds)))] else .bad := by
  have hv : (decimal ds).map octal = ds.map some := by
    unfold decimal
    rw [List.map_map]
    exact List.map_congr_left fun d h => (C175_characters (d + 48) d).2.2.1.2 ⟨hd d h, rfl⟩
  have hcs : decimal ds ≠ [] := by simpa [decimal] using hne
  have key := convert_text 8 (by decide) octal false (-1) ws (decimal ds) ds rest neg (fun c hc => (C175_characters c 0).1.2 (hw c hc)) hv
    (.inl (by decide)) (fun c hc => .inl ⟨by unfold octal; rw [if_neg (by have := hr c hc; omega)], fun h => absurd h hcs⟩) octal_plain
  obtain ⟨c, s, e⟩ : ∃ c s, ws ++ sign neg ++ decimal ds ++ rest = c :: s := by
    cases h : ws ++ sign neg ++ decimal ds ++ rest with
    | nil => simp [hcs] at h
    | cons c s => exact ⟨c, s, rfl⟩
  rw [e] at key ⊢
  rw [scanf_o, key]
  split
  · rw [bind_ok, if_neg (by simp [hcs])]
  · rfl

/-- C175. The width between `%` and the conversion is a decimal number of any length; without digits there is no limit. -/
theorem C175_width (ds rest : Str) (hd : ∀ d ∈ ds, d < 10) (hr : ∀ c, rest.head? = some c → c < 48 ∨ 57 < c) :
    width (decimal ds ++ rest) = (if ds = [] then -1 else (value 10 ds : Int), rest) := by
  have ht : (decimal ds ++ rest).takeWhile (fun c => (digit c).isSome) = decimal ds := by
    rw [List.takeWhile_append_of_pos]
    · cases rest with
      | nil => simp
      | cons c rest =>
        rw [List.takeWhile_cons, if_neg, List.append_nil]
        have := hr c rfl
        unfold digit
        rw [if_neg (by omega)]
        simp
    · intro c hc
      obtain ⟨d, h, rfl⟩ := List.mem_map.1 hc
      simp only [digit_decimal d (hd d h), Option.isSome_some]
  have hf : ∀ (ds : List Nat) (a : Nat), (decimal ds).foldl (fun (a : Int) c => a * 10 + ((c - 48 : Nat) : Int)) (a : Int) =
      ((ds.foldl (fun a d => a * 10 + d) a : Nat) : Int) := by
    intro ds
    induction ds with
    | nil => intro a; rfl
    | cons d ds ih =>
      intro a
      have h := ih (a * 10 + d)
      simp only [decimal, List.map_cons, List.foldl_cons] at h ⊢
      rw [← h, Nat.add_sub_cancel]
      simp
  simp only [width, ht]
  have h0 : (decimal ds).foldl (fun (a : Int) c => a * 10 + ((c - 48 : Nat) : Int)) 0 = (value 10 ds : Int) := hf ds 0
  rw [List.drop_left, h0]
  by_cases h : ds = []
  · subst h; rfl
  · rw [if_neg (by simpa [decimal] using h), if_neg h]

/-! ### Cases -/

example : stringToInt (lit "  -1234 x") 0 = .ok (-1234) := by decide +kernel
example : (∀ c ∈ lit "  ", isSpace c = true) ∧ decimal [1, 2, 3, 4] = lit "1234" ∧ value 10 [1, 2, 3, 4] = 1234 ∧
    lit "  -1234 x" = lit "  " ++ sign true ++ decimal [1, 2, 3, 4] ++ lit " x" := by decide +kernel
example : intToString 12 (-2147483648) false = .done (lit "-2147483648" ++ [0]) := by decide +kernel
example : stringToInt (lit "0x0000BEEF") (-1) = .ok 0xBEEF := by decide +kernel
example : SpellsHex (lit "0000BeeF") [0, 0, 0, 0, 11, 14, 14, 15] := by unfold SpellsHex; decide +kernel
example : stringToInt64 (lit "0x00000001000F4240") = .ok (2 ^ 32 + 1000000) := by decide +kernel
example : scanf (lit "\t\r-0178") (lit "%o") = .ok [.int (-15)] := C175_octal [9, 13] [0, 1, 7] (lit "8") true (by decide) (by decide) (by decide) (by decide)
example : width (lit "12x") = (12, lit "x") := C175_width [1, 2] (lit "x") (by decide) (by decide)

end Verif.Scanf
