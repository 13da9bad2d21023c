import Verif.Core.Base64
/-!
Property theorems C199: Base64.
-/
namespace Verif.Base64

/-- The alphabet of RFC 4648, section 4. -/
def alphabet : List Nat := "ABCDEFGHIJKLMNOPQRSTUVWXYZabcdefghijklmnopqrstuvwxyz0123456789+/".toList.map Char.toNat

/-- A group of 24 bits as four characters of six bits. -/
def group (a b c : UInt8) : List Nat :=
  let n := a.toNat * 65536 + b.toNat * 256 + c.toNat
  [n / 262144, n / 4096 % 64, n / 64 % 64, n % 64].map fun i => alphabet.getD i 0

/-- RFC 4648, section 4: groups of three bytes; the last one is filled up with zero bits and its missing characters are `=`. -/
def rfc4648 : List UInt8 → List Nat
  | a :: b :: c :: r => group a b c ++ rfc4648 r
  | [a, b] => (group a b 0).take 3 ++ [61]
  | [a] => (group a 0 0).take 2 ++ [61, 61]
  | [] => []

theorem alphabet_char (i : Nat) (h : i < 64) : alphabet.getD i 0 = char i := by
  have : ∀ i : Fin 64, alphabet.getD i.val 0 = char i.val := by decide +kernel
  exact this ⟨i, h⟩

theorem table_char (i : Nat) (h : i < 64) : (table[char i - 43]?).getD 0x80 = i ∧ char i ≠ 61 ∧ ¬ (char i < 43) ∧ ¬ (char i ≥ 123) := by
  have : ∀ i : Fin 64, (table[char i.val - 43]?).getD 0x80 = i.val ∧ char i.val ≠ 61 ∧ ¬ (char i.val < 43) ∧ ¬ (char i.val ≥ 123) := by decide +kernel
  exact this ⟨i, h⟩

theorem join2 (a b : Nat) (hb : b < 256) : ((a &&& 3) <<< 4) ||| (b >>> 4) = a % 4 * 16 + b / 16 := by
  have h : ∀ (x : Fin 4) (y : Fin 16), (x.val <<< 4) ||| y.val = x.val * 16 + y.val := by decide +kernel
  have e1 : a &&& 3 = a % 4 := Nat.and_two_pow_sub_one_eq_mod a 2
  have e2 : b >>> 4 = b / 16 := Nat.shiftRight_eq_div_pow b 4
  rw [e1, e2]
  exact h ⟨a % 4, by omega⟩ ⟨b / 16, by omega⟩

theorem join4 (a b : Nat) (hb : b < 256) : ((a &&& 15) <<< 2) ||| (b >>> 6) = a % 16 * 4 + b / 64 := by
  have h : ∀ (x : Fin 16) (y : Fin 4), (x.val <<< 2) ||| y.val = x.val * 4 + y.val := by decide +kernel
  have e1 : a &&& 15 = a % 16 := Nat.and_two_pow_sub_one_eq_mod a 4
  have e2 : b >>> 6 = b / 64 := Nat.shiftRight_eq_div_pow b 6
  rw [e1, e2]
  exact h ⟨a % 16, by omega⟩ ⟨b / 64, by omega⟩

/-- The four characters of a group, as the code computes them. -/
theorem group_eq (a b c : UInt8) : group a b c = [char (a.toNat >>> 2), char (((a.toNat &&& 3) <<< 4) ||| (b.toNat >>> 4)),
    char (((b.toNat &&& 15) <<< 2) ||| (c.toNat >>> 6)), char (c.toNat &&& 63)] := by
  have ha := a.toNat_lt
  have hb := b.toNat_lt
  have hc := c.toNat_lt
  have e : c.toNat &&& 63 = c.toNat % 64 := Nat.and_two_pow_sub_one_eq_mod _ 6
  have e2 : a.toNat >>> 2 = a.toNat / 4 := Nat.shiftRight_eq_div_pow _ 2
  rw [join2 _ _ hb, join4 _ _ hc, e, e2]
  simp only [group, List.map_cons, List.map_nil]
  rw [alphabet_char _ (by omega), alphabet_char _ (by omega), alphabet_char _ (by omega), alphabet_char _ (by omega)]
  congr 1
  · congr 1; omega
  · congr 1
    · congr 1; omega
    · congr 1
      · congr 1; omega
      · congr 1
        · congr 1; omega

theorem group_two (a b : UInt8) : (group a b 0).take 3 = [char (a.toNat >>> 2), char (((a.toNat &&& 3) <<< 4) ||| (b.toNat >>> 4)),
    char ((b.toNat &&& 15) <<< 2)] := by
  rw [group_eq]
  simp

theorem group_one (a : UInt8) : (group a 0 0).take 2 = [char (a.toNat >>> 2), char ((a.toNat &&& 3) <<< 4)] := by
  rw [group_eq]
  simp

theorem group_length (a b c : UInt8) : (group a b c).length = 4 := rfl

/-- C199. With room for the text and its terminator the text is that of RFC 4648; with less the result is 0 and nothing is stored
behind the end, as long as there is something to encode or any room at all. -/
theorem C199_encode (room : Nat) (bs : List UInt8) :
    ((rfc4648 bs).length < room → encode room bs = .done (rfc4648 bs)) ∧
    (room ≤ (rfc4648 bs).length → bs ≠ [] → encode room bs = .noRoom) := by
  induction bs using rfc4648.induct generalizing room with
  | case1 a b c r ih =>
    have ih := ih (room - 4)
    rw [encode]
    simp only [rfc4648, List.length_append, group_length]
    constructor
    · intro h
      rw [if_pos (by omega), ih.1 (by omega), group_eq]
      rfl
    · intro h _
      split
      · rename_i h4
        have hr : r ≠ [] := by
          intro e
          subst e
          simp [rfc4648] at h
          omega
        rw [ih.2 (by omega) hr]
        rfl
      · rw [tail, if_pos (by omega)]
  | case2 a b =>
    rw [encode]
    · simp only [rfc4648, group_two, tail]
      constructor
      · intro h; simp at h; rw [if_neg (by omega)]; rfl
      · intro h _; simp at h; rw [if_pos (by omega)]
    · simp
  | case3 a =>
    rw [encode]
    · simp only [rfc4648, group_one, tail]
      constructor
      · intro h; simp at h; rw [if_neg (by omega)]; rfl
      · intro h _; simp at h; rw [if_pos (by omega)]
    · simp
  | case4 =>
    rw [encode]
    · simp [rfc4648, tail]
      omega
    · simp

/-- C199 fails in one case: encoding nothing into no room stores a terminator. -/
theorem C199_no_room_counterexample : encode 0 [] = .overflow := by decide

theorem step (n v room : Nat) (i : Nat) (h : i < 64) (r : List Nat) : decodeLoop n v room (char i :: r) =
    if n % 4 ≠ 0 ∧ room > 0 then
      (UInt8.ofNat (((v * 64 + i) % 2 ^ 64) >>> (6 - (n % 4) * 2)) :: (decodeLoop (n + 1) ((v * 64 + i) % 2 ^ 64) (room - 1) r).1,
        (decodeLoop (n + 1) ((v * 64 + i) % 2 ^ 64) (room - 1) r).2)
    else decodeLoop (n + 1) ((v * 64 + i) % 2 ^ 64) room r := by
  obtain ⟨t1, t2, t3, t4⟩ := table_char i h
  rw [decodeLoop, if_neg t2, t1, if_neg (by omega)]

theorem byte_of (v : Nat) (a : UInt8) (h : v % 256 = a.toNat) : UInt8.ofNat v = a := by
  apply UInt8.toNat_inj.1
  rw [UInt8.toNat_ofNat']
  exact h

theorem split4 (a b c : UInt8) : a.toNat >>> 2 < 64 ∧ ((a.toNat &&& 3) <<< 4) ||| (b.toNat >>> 4) < 64 ∧
    ((b.toNat &&& 15) <<< 2) ||| (c.toNat >>> 6) < 64 ∧ c.toNat &&& 63 < 64 := by
  have ha := a.toNat_lt
  have hb := b.toNat_lt
  have hc := c.toNat_lt
  have e : c.toNat &&& 63 = c.toNat % 64 := Nat.and_two_pow_sub_one_eq_mod _ 6
  have e2 : a.toNat >>> 2 = a.toNat / 4 := Nat.shiftRight_eq_div_pow _ 2
  rw [join2 _ _ hb, join4 _ _ hc, e, e2]
  omega

/-- Decoding a group. -/
theorem decode_group (a b c : UInt8) (r : List Nat) (n v room : Nat) (hn : n % 4 = 0) : ∃ v' : Nat,
    decodeLoop n v room (group a b c ++ r) =
      ([a, b, c].take room ++ (decodeLoop (n + 4) v' (room - 3) r).1, (decodeLoop (n + 4) v' (room - 3) r).2) := by
  obtain ⟨s0, s1, s2, s3⟩ := split4 a b c
  have ha := a.toNat_lt
  have hb := b.toNat_lt
  have hc := c.toNat_lt
  have e0 : a.toNat >>> 2 = a.toNat / 4 := Nat.shiftRight_eq_div_pow _ 2
  have e1 := join2 a.toNat b.toNat hb
  have e2 := join4 b.toNat c.toNat hc
  have e3 : c.toNat &&& 63 = c.toNat % 64 := Nat.and_two_pow_sub_one_eq_mod _ 6
  rw [group_eq]
  generalize a.toNat >>> 2 = x0 at *
  generalize ((a.toNat &&& 3) <<< 4) ||| (b.toNat >>> 4) = x1 at *
  generalize ((b.toNat &&& 15) <<< 2) ||| (c.toNat >>> 6) = x2 at *
  generalize c.toNat &&& 63 = x3 at *
  simp only [List.cons_append, List.nil_append]
  obtain ⟨v0, hv0⟩ : ∃ w, w = (v * 64 + x0) % 2 ^ 64 := ⟨_, rfl⟩
  obtain ⟨v1, hv1⟩ : ∃ w, w = (v0 * 64 + x1) % 2 ^ 64 := ⟨_, rfl⟩
  obtain ⟨v2, hv2⟩ : ∃ w, w = (v1 * 64 + x2) % 2 ^ 64 := ⟨_, rfl⟩
  obtain ⟨v3, hv3⟩ : ∃ w, w = (v2 * 64 + x3) % 2 ^ 64 := ⟨_, rfl⟩
  have b1 : UInt8.ofNat (v1 >>> 4) = a := by
    apply byte_of
    rw [Nat.shiftRight_eq_div_pow]
    simp only [Nat.reducePow] at *
    omega
  have b2 : UInt8.ofNat (v2 >>> 2) = b := by
    apply byte_of
    rw [Nat.shiftRight_eq_div_pow]
    simp only [Nat.reducePow] at *
    omega
  have b3 : UInt8.ofNat (v3 >>> 0) = c := by
    apply byte_of
    rw [Nat.shiftRight_eq_div_pow]
    simp only [Nat.reducePow] at *
    omega
  refine ⟨v3, ?_⟩
  have m1 : (n + 1) % 4 = 1 := by omega
  have m2 : (n + 1 + 1) % 4 = 2 := by omega
  have m3 : (n + 1 + 1 + 1) % 4 = 3 := by omega
  rw [step n v room x0 s0, if_neg (by omega), ← hv0]
  match room with
  | 0 =>
    rw [step _ _ _ x1 s1, if_neg (by omega), ← hv1, step _ _ _ x2 s2, if_neg (by omega), ← hv2, step _ _ _ x3 s3, if_neg (by omega), ← hv3]
    simp
  | 1 =>
    rw [step _ _ _ x1 s1, if_pos (by omega), ← hv1, step _ _ _ x2 s2, if_neg (by omega), ← hv2, step _ _ _ x3 s3, if_neg (by omega), ← hv3, m1]
    simp only [Nat.one_mul, Nat.reduceSub, b1]
    simp
  | 2 =>
    rw [step _ _ _ x1 s1, if_pos (by omega), ← hv1, step _ _ _ x2 s2, if_pos (by omega), ← hv2, step _ _ _ x3 s3, if_neg (by omega), ← hv3, m1, m2]
    simp only [Nat.one_mul, Nat.reduceSub, Nat.reduceMul, b1, b2]
    simp
  | room + 3 =>
    rw [step _ _ _ x1 s1, if_pos (by omega), ← hv1, step _ _ _ x2 s2, if_pos (by omega), ← hv2, step _ _ _ x3 s3, if_pos (by omega), ← hv3, m1, m2, m3]
    simp only [Nat.one_mul, Nat.reduceSub, Nat.reduceMul, b1, b2, b3]
    simp

/-- The characters that can follow: not `=` and not of the alphabet. -/
def Stops (r : List Nat) : Prop := ∀ c, r.head? = some c → c ≠ 61 ∧ c ∉ alphabet

theorem stop_table (c : Nat) (h : c ∉ alphabet) : c < 43 ∨ c ≥ 123 ∨ (table[c - 43]?).getD 0x80 = 0x80 := by
  by_cases h1 : c < 123
  · have : ∀ c : Fin 123, c.val ∉ alphabet → c.val < 43 ∨ c.val ≥ 123 ∨ (table[c.val - 43]?).getD 0x80 = 0x80 := by decide +kernel
    exact this ⟨c, h1⟩ h
  · omega

theorem decode_stop (n v room : Nat) (r : List Nat) (h : Stops r) : decodeLoop n v room r = ([], r) := by
  cases r with
  | nil => rfl
  | cons c r =>
    obtain ⟨h1, h2⟩ := h c rfl
    rw [decodeLoop, if_neg h1, if_pos (stop_table c h2)]

theorem dropWhile_stop (r : List Nat) (h : Stops r) : r.dropWhile (· = 61) = r := by
  cases r with
  | nil => rfl
  | cons c r =>
    obtain ⟨h1, _⟩ := h c rfl
    rw [List.dropWhile_cons_of_neg (by simpa using h1)]

theorem decode_rfc (bs : List UInt8) (r : List Nat) (h : Stops r) : ∀ (n v room : Nat), n % 4 = 0 →
    decodeLoop n v room (rfc4648 bs ++ r) = (bs.take room, r) := by
  induction bs using rfc4648.induct with
  | case1 a b c rest ih =>
    intro n v room hn
    rw [rfc4648, List.append_assoc]
    obtain ⟨v', hv⟩ := decode_group a b c (rfc4648 rest ++ r) n v room hn
    rw [hv, ih (n + 4) v' (room - 3) (by omega)]
    have : (a :: b :: c :: rest).take room = [a, b, c].take room ++ rest.take (room - 3) := by
      rw [show a :: b :: c :: rest = [a, b, c] ++ rest from rfl, List.take_append]
      rfl
    rw [this]
  | case2 a b =>
    intro n v room hn
    rw [rfc4648, group_two]
    obtain ⟨s0, s1, s2, _⟩ := split4 a b 0
    have z : (UInt8.toNat 0) >>> 6 = 0 := rfl
    rw [z, Nat.or_zero] at s2
    have ha := a.toNat_lt
    have hb := b.toNat_lt
    have e0 : a.toNat >>> 2 = a.toNat / 4 := Nat.shiftRight_eq_div_pow _ 2
    have e1 := join2 a.toNat b.toNat hb
    have e2 := join4 b.toNat 0 (by omega)
    have z2 : 0 >>> 6 = 0 := rfl
    rw [z2, Nat.or_zero] at e2
    generalize a.toNat >>> 2 = x0 at *
    generalize ((a.toNat &&& 3) <<< 4) ||| (b.toNat >>> 4) = x1 at *
    generalize (b.toNat &&& 15) <<< 2 = x2 at *
    simp only [List.cons_append, List.nil_append]
    obtain ⟨v0, hv0⟩ : ∃ w, w = (v * 64 + x0) % 2 ^ 64 := ⟨_, rfl⟩
    obtain ⟨v1, hv1⟩ : ∃ w, w = (v0 * 64 + x1) % 2 ^ 64 := ⟨_, rfl⟩
    obtain ⟨v2, hv2⟩ : ∃ w, w = (v1 * 64 + x2) % 2 ^ 64 := ⟨_, rfl⟩
    have b1 : UInt8.ofNat (v1 >>> 4) = a := by
      apply byte_of
      rw [Nat.shiftRight_eq_div_pow]
      simp only [Nat.reducePow] at *
      omega
    have b2 : UInt8.ofNat (v2 >>> 2) = b := by
      apply byte_of
      rw [Nat.shiftRight_eq_div_pow]
      simp only [Nat.reducePow] at *
      omega
    have m1 : (n + 1) % 4 = 1 := by omega
    have m2 : (n + 1 + 1) % 4 = 2 := by omega
    have fin : ∀ k w q, decodeLoop k w q (61 :: r) = ([], r) := by
      intro k w q
      rw [decodeLoop, if_pos rfl, dropWhile_stop r h]
    rw [step n v room x0 s0, if_neg (by omega), ← hv0]
    match room with
    | 0 =>
      rw [step _ _ _ x1 s1, if_neg (by omega), ← hv1, step _ _ _ x2 s2, if_neg (by omega), fin]
      simp
    | 1 =>
      rw [step _ _ _ x1 s1, if_pos (by omega), ← hv1, step _ _ _ x2 s2, if_neg (by omega), fin, m1]
      simp only [Nat.one_mul, Nat.reduceSub, b1]
      simp
    | room + 2 =>
      rw [step _ _ _ x1 s1, if_pos (by omega), ← hv1, step _ _ _ x2 s2, if_pos (by omega), ← hv2, fin, m1, m2]
      simp only [Nat.one_mul, Nat.reduceSub, Nat.reduceMul, b1, b2]
      simp
  | case3 a =>
    intro n v room hn
    rw [rfc4648, group_one]
    obtain ⟨s0, s1, _, _⟩ := split4 a 0 0
    have z : (UInt8.toNat 0) >>> 4 = 0 := rfl
    rw [z, Nat.or_zero] at s1
    have ha := a.toNat_lt
    have e0 : a.toNat >>> 2 = a.toNat / 4 := Nat.shiftRight_eq_div_pow _ 2
    have e1 := join2 a.toNat 0 (by omega)
    have z2 : 0 >>> 4 = 0 := rfl
    rw [z2, Nat.or_zero] at e1
    generalize a.toNat >>> 2 = x0 at *
    generalize (a.toNat &&& 3) <<< 4 = x1 at *
    simp only [List.cons_append, List.nil_append]
    obtain ⟨v0, hv0⟩ : ∃ w, w = (v * 64 + x0) % 2 ^ 64 := ⟨_, rfl⟩
    obtain ⟨v1, hv1⟩ : ∃ w, w = (v0 * 64 + x1) % 2 ^ 64 := ⟨_, rfl⟩
    have b1 : UInt8.ofNat (v1 >>> 4) = a := by
      apply byte_of
      rw [Nat.shiftRight_eq_div_pow]
      simp only [Nat.reducePow] at *
      omega
    have m1 : (n + 1) % 4 = 1 := by omega
    have fin : ∀ k w q, decodeLoop k w q (61 :: 61 :: r) = ([], r) := by
      intro k w q
      rw [decodeLoop, if_pos rfl, List.dropWhile_cons_of_pos (by simp), dropWhile_stop r h]
    rw [step n v room x0 s0, if_neg (by omega), ← hv0]
    match room with
    | 0 =>
      rw [step _ _ _ x1 s1, if_neg (by omega), fin]
      simp
    | room + 1 =>
      rw [step _ _ _ x1 s1, if_pos (by omega), ← hv1, fin, m1]
      simp only [Nat.one_mul, Nat.reduceSub, b1]
      simp
  | case4 =>
    intro n v room _
    rw [rfc4648, List.nil_append, decode_stop _ _ _ _ h]
    simp

/-- C199. Decoding what RFC 4648 makes of any bytes, behind any spaces, gives these bytes, as many as there is room for; the
whole text is passed over and nothing behind it. -/
theorem C199_decode (room : Nat) (ws : List Nat) (bs : List UInt8) (r : List Nat) (hw : ∀ c ∈ ws, c ∈ [32, 9, 13, 10]) (h : Stops r)
    (hr : bs = [] → ∀ c, r.head? = some c → c ∉ [32, 9, 13, 10]) : decode room (ws ++ rfc4648 bs ++ r) = (bs.take room, r) := by
  have hs : ∀ c, Scanf.isSpace c = true ↔ c ∈ [32, 9, 13, 10] := by
    intro c
    simp [Scanf.isSpace]
    omega
  have hd : ∀ t : List Nat, (∀ c, t.head? = some c → c ∉ [32, 9, 13, 10]) → (ws ++ t).dropWhile Scanf.isSpace = t := by
    intro t ht
    clear hr
    induction ws with
    | nil =>
      cases t with
      | nil => rfl
      | cons c t =>
        rw [List.nil_append, List.dropWhile_cons_of_neg]
        rw [hs]
        exact ht c rfl
    | cons w ws ih =>
      rw [List.cons_append, List.dropWhile_cons_of_pos ((hs w).2 (hw w List.mem_cons_self))]
      exact ih fun c hc => hw c (List.mem_cons_of_mem _ hc)
  have hfirst : ∀ i, i < 64 → char i ∉ [32, 9, 13, 10] := by
    intro i hi
    have : ∀ i : Fin 64, char i.val ∉ [32, 9, 13, 10] := by decide +kernel
    exact this ⟨i, hi⟩
  rw [decode, List.append_assoc, hd]
  · exact decode_rfc bs r h 0 0 room rfl
  · intro c hc
    match bs with
    | [] => exact hr rfl c (by simpa [rfc4648] using hc)
    | [a] =>
      rw [rfc4648, group_one] at hc
      simp only [List.cons_append, List.head?_cons, Option.some.injEq] at hc
      subst hc
      exact hfirst _ (split4 a 0 0).1
    | [a, b] =>
      rw [rfc4648, group_two] at hc
      simp only [List.cons_append, List.head?_cons, Option.some.injEq] at hc
      subst hc
      exact hfirst _ (split4 a 0 0).1
    | a :: b :: d :: t =>
      rw [rfc4648, group_eq] at hc
      simp only [List.cons_append, List.head?_cons, Option.some.injEq] at hc
      subst hc
      exact hfirst _ (split4 a 0 0).1

/-- C199. What is encoded is decoded to the same bytes. -/
theorem C199_round_trip (room : Nat) (bs : List UInt8) (s : List Nat) (e : encode room bs = .done s) :
    decode bs.length s = (bs, []) := by
  obtain ⟨h1, h2⟩ := C199_encode room bs
  have hs : s = rfc4648 bs := by
    by_cases hr : (rfc4648 bs).length < room
    · rw [h1 hr] at e
      injection e with e
      exact e.symm
    · by_cases hb : bs = []
      · subst hb
        have : room = 0 := by simp [rfc4648] at hr; exact hr
        subst this
        cases e
      · rw [h2 (by omega) hb] at e
        cases e
  subst hs
  have := C199_decode bs.length [] bs [] (by simp) (by simp [Stops]) (by simp)
  simp only [List.nil_append, List.append_nil] at this
  rw [this, List.take_length]

/-- `Man` and `Ma` become `TWFu` and `TWE=`. -/
example : encode 5 [77, 97, 110] = .done [84, 87, 70, 117] ∧ encode 5 [77, 97] = .done [84, 87, 69, 61] ∧
    encode 4 [77, 97] = .noRoom ∧ decode 10 [32, 84, 87, 69, 61, 59] = ([77, 97], [59]) ∧ decode 1 [84, 87, 69, 61] = ([77], []) := by
  decide +kernel

end Verif.Base64
