/-!
Bytes and base-256 digits, shared by all models.
-/
namespace Verif

abbrev Bytes := List UInt8

/-- Low byte of a (two's complement) integer, i.e. the C expression `(uint8_t)(x & 0xFF)`. -/
def lowByte (x : Int) : UInt8 := UInt8.ofNat (x % 256).toNat

/-- `n` big-endian bytes of a (two's complement) integer: the byte at distance `i` from the
end is `(x >> 8*i) & 0xFF`. -/
def beBytes : Nat → Int → Bytes
  | 0, _ => []
  | n + 1, x => beBytes n (x / 256) ++ [lowByte x]

/-- Big-endian value of a byte string. -/
def beNat (l : Bytes) : Nat := l.foldl (fun a b => a * 256 + b.toNat) 0

/-- `n` little-endian bytes of a natural number. -/
def leBytes : Nat → Nat → Bytes
  | 0, _ => []
  | n + 1, x => UInt8.ofNat (x % 256) :: leBytes n (x / 256)

/-- Little-endian value of a byte string. -/
def leNat : Bytes → Nat
  | [] => 0
  | b :: l => b.toNat + 256 * leNat l

@[simp] theorem lowByte_toNat (x : Int) : (lowByte x).toNat = (x % 256).toNat := by
  unfold lowByte
  rw [UInt8.toNat_ofNat']
  have := Int.emod_lt_of_pos x (b := 256) (by decide)
  have := Int.emod_nonneg x (b := 256) (by decide)
  omega

@[simp] theorem beBytes_length (n : Nat) (x : Int) : (beBytes n x).length = n := by
  induction n generalizing x with
  | zero => rfl
  | succ n ih => simp [beBytes, ih]

theorem beNat_append_one (l : Bytes) (b : UInt8) : beNat (l ++ [b]) = beNat l * 256 + b.toNat := by
  simp [beNat, List.foldl_append]

@[simp] theorem beNat_nil : beNat [] = 0 := rfl

theorem beNat_foldl (l : Bytes) (a : Nat) :
    l.foldl (fun a b => a * 256 + b.toNat) a = a * 256 ^ l.length + beNat l := by
  induction l generalizing a with
  | nil => simp [beNat]
  | cons b l ih =>
    simp only [List.foldl_cons, beNat, List.length_cons]
    rw [ih, ih (0 * 256 + b.toNat)]
    simp only [beNat, Nat.pow_succ, Nat.zero_mul, Nat.zero_add]
    rw [Nat.add_mul, Nat.mul_assoc, Nat.mul_comm 256, Nat.add_assoc]

theorem beNat_cons (b : UInt8) (l : Bytes) : beNat (b :: l) = b.toNat * 256 ^ l.length + beNat l := by
  have := beNat_foldl l b.toNat
  simp only [beNat, List.foldl_cons, Nat.zero_mul, Nat.zero_add] at *
  exact this

theorem beNat_lt (l : Bytes) : beNat l < 256 ^ l.length := by
  induction l with
  | nil => simp
  | cons b l ih =>
    rw [beNat_cons, List.length_cons, Nat.pow_succ]
    have hb : b.toNat < 256 := b.toNat_lt
    have h : (b.toNat + 1) * 256 ^ l.length ≤ 256 * 256 ^ l.length :=
      Nat.mul_le_mul_right _ hb
    rw [Nat.add_mul] at h
    omega

theorem emod_mul_256 (x k : Int) (hk : 0 < k) : x % (256 * k) = x % 256 + 256 * (x / 256 % k) := by
  have h1 := Int.mul_ediv_add_emod x 256
  have h2 := Int.mul_ediv_add_emod (x / 256) k
  have h3 := Int.emod_nonneg (x / 256) (b := k) (by omega)
  have h4 := Int.emod_lt_of_pos (x / 256) hk
  have h5 : x = (x % 256 + 256 * (x / 256 % k)) + (256 * k) * (x / 256 / k) := by
    rw [Int.mul_assoc]; omega
  conv => lhs; rw [h5]
  rw [Int.add_mul_emod_self_left]
  apply Int.emod_eq_of_lt <;> omega

theorem beNat_beBytes (n : Nat) (x : Int) : (beNat (beBytes n x) : Int) = x % (256 ^ n : Nat) := by
  induction n generalizing x with
  | zero => simp [beBytes, Int.emod_one]
  | succ n ih =>
    rw [beBytes, beNat_append_one, lowByte_toNat]
    have h1 := Int.emod_nonneg x (b := 256) (by decide)
    have hh : ((256 ^ (n+1) : Nat) : Int) = 256 * ((256 ^ n : Nat) : Int) := by
      rw [Nat.pow_succ, Nat.mul_comm, Int.natCast_mul]; rfl
    rw [hh, Int.natCast_add, Int.natCast_mul, ih, Int.toNat_of_nonneg h1]
    have hk : (0 : Int) < ((256 ^ n : Nat) : Int) := by
      exact_mod_cast Nat.pow_pos (by decide)
    generalize ((256 ^ n : Nat) : Int) = k at hk
    rw [emod_mul_256 x k hk]
    have : ((256 : Nat) : Int) = 256 := rfl
    omega

theorem beNat_beBytes_nat (n x : Nat) : beNat (beBytes n (x : Int)) = x % 256 ^ n := by
  have := beNat_beBytes n (x : Int)
  exact_mod_cast this

theorem beNat_inj {l m : Bytes} (hlen : l.length = m.length) (h : beNat l = beNat m) : l = m := by
  induction l generalizing m with
  | nil => cases m <;> simp_all
  | cons b l ih =>
    cases m with
    | nil => simp at hlen
    | cons c m =>
      simp only [List.length_cons, Nat.add_right_cancel_iff] at hlen
      rw [beNat_cons, beNat_cons, hlen] at h
      have h1 := beNat_lt l
      have h2 := beNat_lt m
      rw [hlen] at h1
      have key : b.toNat = c.toNat := by
        have a1 : (b.toNat * 256 ^ m.length + beNat l) / 256 ^ m.length = b.toNat := by
          rw [Nat.mul_comm, Nat.mul_add_div (Nat.pow_pos (by decide)), Nat.div_eq_of_lt h1]; rfl
        have a2 : (c.toNat * 256 ^ m.length + beNat m) / 256 ^ m.length = c.toNat := by
          rw [Nat.mul_comm, Nat.mul_add_div (Nat.pow_pos (by decide)), Nat.div_eq_of_lt h2]; rfl
        rw [← a1, ← a2, h]
      have hbc : b = c := UInt8.toNat_inj.mp key
      rw [key] at h
      rw [hbc, ih hlen (by omega)]

theorem beBytes_beNat (l : Bytes) : beBytes l.length (beNat l : Int) = l := by
  apply beNat_inj (by simp)
  rw [beNat_beBytes_nat, Nat.mod_eq_of_lt (beNat_lt l)]

/-- Two's complement: the bytes only depend on the value modulo `256^n`. -/
theorem beBytes_congr (n : Nat) (x y : Int) (h : x % (256 ^ n : Nat) = y % (256 ^ n : Nat)) :
    beBytes n x = beBytes n y := by
  apply beNat_inj (by simp)
  have h1 := beNat_beBytes n x
  have h2 := beNat_beBytes n y
  omega

@[simp] theorem leBytes_length (n x : Nat) : (leBytes n x).length = n := by
  induction n generalizing x with
  | zero => rfl
  | succ n ih => simp [leBytes, ih]

theorem leNat_leBytes (n x : Nat) : leNat (leBytes n x) = x % 256 ^ n := by
  induction n generalizing x with
  | zero => simp [leBytes, leNat, Nat.mod_one]
  | succ n ih =>
    simp only [leBytes, leNat, ih, UInt8.toNat_ofNat']
    rw [Nat.pow_succ 256 n, Nat.mul_comm (256 ^ n) 256, Nat.mod_mul]
    have : x % 256 % 2 ^ 8 = x % 256 := by omega
    omega

theorem leNat_lt (l : Bytes) : leNat l < 256 ^ l.length := by
  induction l with
  | nil => simp [leNat]
  | cons b l ih =>
    have hb : b.toNat < 256 := b.toNat_lt
    simp only [leNat, List.length_cons, Nat.pow_succ]
    omega

end Verif
