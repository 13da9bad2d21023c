import Verif.Mkclean.Tracks
/-!
Lemmas about the model of `CleanTracks`: greatest common divisor, picture sizes and crops.
-/
set_option linter.unusedSimpArgs false
namespace Verif.Mkclean.Tracks
open Verif Verif.Mkv

theorem bind_ok {α β : Type} {x : Out α} {f : α → Out β} {b : β} (h : x.bind f = .ok b) : ∃ a, x = .ok a ∧ f a = .ok b := by
  cases x with
  | ok a => exact ⟨a, rfl, h⟩
  | err => cases h
  | bad => cases h
  | hang => cases h

theorem ck_ok {α : Type} {x : Int} {k : Out α} {b : α} (h : ck x k = .ok b) : in64 x = true ∧ k = .ok b := by
  unfold ck at h
  cases hx : in64 x with
  | true => rw [hx, if_pos rfl] at h; exact ⟨rfl, h⟩
  | false => rw [hx] at h; cases h

theorem ck_in {α : Type} {x : Int} (k : Out α) (h1 : -2 ^ 63 ≤ x) (h2 : x < 2 ^ 63) : ck x k = k := by
  unfold ck in64
  rw [if_pos (decide_eq_true ⟨h1, h2⟩)]

theorem toInt_of {x : Int} (h0 : 0 ≤ x) (h1 : x < 2 ^ 31) : toInt x = x := by
  unfold toInt
  simp only [Int.reducePow] at *
  omega

theorem gcd_eq : ∀ (fuel : Nat) (a b : Nat), 0 < b → b < fuel → gcd fuel a b = .ok (Nat.gcd a b : Nat)
  | 0, _, _, _, h => absurd h (Nat.not_lt_zero _)
  | fuel + 1, a, b, hb, h => by
    unfold gcd
    have hb' : (b : Int) ≠ 0 := by omega
    rw [if_neg (by omega)]
    have e : Int.tmod (a : Int) (b : Int) = ((a % b : Nat) : Int) := by
      rw [Int.tmod_eq_emod_of_nonneg (by omega)]; rfl
    simp only [e]
    by_cases hc : a % b = 0
    · rw [if_pos (by omega)]
      rw [Nat.gcd_comm, Nat.gcd_rec, hc, Nat.gcd_zero_left]
    · rw [if_neg (by omega)]
      have hlt := Nat.mod_lt a hb
      rw [gcd_eq fuel b (a % b) (by omega) (by omega)]
      rw [Nat.gcd_comm a b, Nat.gcd_rec b a, Nat.gcd_comm]

/-- The model's `gcd` is the greatest common divisor. -/
theorem gcd_pos {a b : Int} (ha : 0 ≤ a) (hb : 0 < b) : gcd (b.natAbs + 1) a b = .ok (Int.gcd a b) := by
  have := gcd_eq (b.natAbs + 1) a.natAbs b.natAbs (by omega) (by omega)
  rw [Int.natAbs_of_nonneg ha, Int.natAbs_of_nonneg (by omega : 0 ≤ b)] at this
  exact this

/-- The sums of the crops. -/
def Video.noCrop (v : Video) : Video := { v with cropL := none, cropR := none, cropT := none, cropB := none }

def Video.keepCrop (v : Video) : Video :=
  { v with cropL := Tracks.keep (v.cropL.getD 0), cropR := Tracks.keep (v.cropR.getD 0), cropT := Tracks.keep (v.cropT.getD 0), cropB := Tracks.keep (v.cropB.getD 0) }

theorem keep_getD (x : Int) : (Tracks.keep x).getD 0 = x := by
  unfold Tracks.keep
  by_cases h : x = 0
  · rw [if_pos h, h]; rfl
  · rw [if_neg h]; rfl

theorem cleanCrop_ok {v v' : Video} {w h : Int} (e : cleanCrop v w h = .ok v') :
    (v' = v.noCrop ∧ (v.cropT.getD 0 + v.cropB.getD 0 ≥ h ∨ v.cropL.getD 0 + v.cropR.getD 0 ≥ w)) ∨
    (v' = v.keepCrop ∧ v.cropT.getD 0 + v.cropB.getD 0 < h ∧ v.cropL.getD 0 + v.cropR.getD 0 < w) := by
  unfold cleanCrop at e
  obtain ⟨_, e⟩ := ck_ok e
  by_cases h1 : v.cropT.getD 0 + v.cropB.getD 0 ≥ h
  · rw [if_pos h1] at e; cases e; exact .inl ⟨rfl, .inl h1⟩
  · rw [if_neg h1] at e
    obtain ⟨_, e⟩ := ck_ok e
    by_cases h2 : v.cropL.getD 0 + v.cropR.getD 0 ≥ w
    · rw [if_pos h2] at e; cases e; exact .inl ⟨rfl, .inr h2⟩
    · rw [if_neg h2] at e; cases e; exact .inr ⟨rfl, by omega, by omega⟩

theorem unshrink_ok {w h dw dh : Int} {p : Int × Int × Bool} (e : unshrink w h dw dh = .ok p) :
    p.1 * dh = p.2.1 * dw ∧ (p.2.2 = true → p = (dw, dh, true) ∧ dw < w ∧ dh < h) ∧
    (p.2.2 = false → p = (dw, dh, false) ∨ (dw < w ∧ dh < h ∧ ((p.1 = w ∧ p.2.1 = Int.tdiv (w * dh) dw) ∨ (p.2.1 = h ∧ p.1 = Int.tdiv (h * dw) dh ∧ dw > dh) ∨ dw = 0 ∨ dh = 0))) := by
  unfold unshrink at e
  by_cases hc : dh < h ∧ dw < w
  · rw [if_pos hc] at e
    obtain ⟨g, _, e⟩ := bind_ok e
    obtain ⟨_, e⟩ := ck_ok e
    obtain ⟨_, e⟩ := ck_ok e
    by_cases hs : serious g w h dw dh ≠ 0
    · rw [if_pos hs] at e
      obtain ⟨q, hq, e⟩ := bind_ok e
      obtain ⟨_, e⟩ := ck_ok e
      obtain ⟨_, e⟩ := ck_ok e
      by_cases hne : q.1 * dh ≠ q.2 * dw
      · rw [if_pos hne] at e
        cases e
        exact ⟨Int.mul_comm _ _, fun _ => ⟨rfl, hc.2, hc.1⟩, fun hf => (by cases hf)⟩
      · rw [if_neg hne] at e
        cases e
        refine ⟨Classical.not_not.mp hne, fun hf => (by cases hf), fun _ => .inr ⟨hc.2, hc.1, ?_⟩⟩
        by_cases hd : dw > dh
        · rw [if_pos hd] at hq
          obtain ⟨x, hx, hq⟩ := bind_ok hq
          cases hq
          unfold scale at hx
          by_cases hz : dh = 0
          · exact .inr (.inr (.inr hz))
          · rw [if_neg hz] at hx
            obtain ⟨_, hx⟩ := ck_ok hx
            cases hx
            exact .inr (.inl ⟨rfl, rfl, hd⟩)
        · rw [if_neg hd] at hq
          obtain ⟨x, hx, hq⟩ := bind_ok hq
          cases hq
          unfold scale at hx
          by_cases hz : dw = 0
          · exact .inr (.inr (.inl hz))
          · rw [if_neg hz] at hx
            obtain ⟨_, hx⟩ := ck_ok hx
            cases hx
            exact .inl ⟨rfl, rfl⟩
    · rw [if_neg hs] at e
      cases e
      exact ⟨Int.mul_comm _ _, fun hf => (by cases hf), fun _ => .inl rfl⟩
  · rw [if_neg hc] at e
    cases e
    exact ⟨Int.mul_comm _ _, fun hf => (by cases hf), fun _ => .inl rfl⟩

/-- The display size is the pixel size, as far as it is given (1036). -/
def Looks (w h : Int) (v : Video) : Prop := (v.displayW = none ∨ v.displayW = some w) ∧ (v.displayH = none ∨ v.displayH = some h)

instance (w h : Int) (v : Video) : Decidable (Looks w h v) := by unfold Looks; infer_instance

/-- The unit with which `cleanPixels` is entered. -/
def pixelUnit (v : Video) : Option Int := if v.unit = some 3 then some 0 else v.unit

theorem noCrop_unit {v : Video} {k : Int} (h : v.unit = some k) : ({ v.noCrop with unit := some (v.noCrop.unit.getD 0) } : Video) = v.noCrop := by
  obtain ⟨⟩ := v; simp only at h; subst h; rfl

theorem keepCrop_unit {v : Video} {k : Int} (h : v.unit = some k) : ({ v.keepCrop with unit := some (v.keepCrop.unit.getD 0) } : Video) = v.keepCrop := by
  obtain ⟨⟩ := v; simp only at h; subst h; rfl

theorem self_unit {v : Video} {k : Int} (h : v.unit = some k) : ({ v with unit := some (v.unit.getD 0) } : Video) = v := by
  obtain ⟨⟩ := v; simp only at h; subst h; rfl

theorem cleanCrop_same {v v' : Video} {w h : Int} (e : cleanCrop v w h = .ok v') :
    v'.pixelW = v.pixelW ∧ v'.pixelH = v.pixelH ∧ v'.displayW = v.displayW ∧ v'.displayH = v.displayH ∧ v'.unit = v.unit ∧
    v'.stereo = v.stereo ∧ v'.oldStereo = v.oldStereo := by
  rcases cleanCrop_ok e with ⟨rfl, _⟩ | ⟨rfl, _⟩ <;> exact ⟨rfl, rfl, rfl, rfl, rfl, rfl, rfl⟩

theorem cleanDisplay_cases {v v' : Video} {w h : Int} (hpw : v.pixelW = some w) (hph : v.pixelH = some h)
    (hw : 0 < w ∧ w < 2 ^ 31) (hh : 0 < h ∧ h < 2 ^ 31) (e : cleanDisplay v = .ok (some v')) :
    (v.displayW = none ∧ v.displayH = none ∧ v' = v) ∨
    (¬ (v.displayW = none ∧ v.displayH = none) ∧
      ((v.unit = some 3 ∧ ¬ Looks w h v ∧ cleanCrop v 0 0 = .ok v') ∨
       (∃ k, v.unit = some k ∧ k ≠ 0 ∧ k ≠ 3 ∧ cleanCrop v (v.displayW.getD w) (v.displayH.getD h) = .ok v') ∨
       ((v.unit = some 3 → Looks w h v) ∧ (v.unit = none ∨ v.unit = some 0 ∨ v.unit = some 3) ∧
          ∃ v2, cleanPixels w h { v with unit := pixelUnit v } = .ok (some v2) ∧
            ((v2.unit = some 3 ∧ v' = v2) ∨
             (v2.unit ≠ some 3 ∧ cleanCrop { v2 with unit := some (v2.unit.getD 0) } (v2.displayW.getD w) (v2.displayH.getD h) = .ok v'))))) := by
  unfold cleanDisplay at e
  rw [hpw, hph] at e
  simp only [toInt_of (Int.le_of_lt hw.1) hw.2, toInt_of (Int.le_of_lt hh.1) hh.2] at e
  rw [if_neg (by omega)] at e
  by_cases hd : v.displayW = none ∧ v.displayH = none
  · rw [if_pos hd] at e
    cases e
    exact .inl ⟨hd.1, hd.2, rfl⟩
  · rw [if_neg hd] at e
    refine .inr ⟨hd, ?_⟩
    obtain ⟨v1, h1, e⟩ := bind_ok e
    unfold cleanRatio at h1
    by_cases h3 : v.unit = some 3
    · rw [if_pos h3] at h1
      by_cases hl : (v.displayW = none ∨ v.displayW = some w) ∧ (v.displayH = none ∨ v.displayH = some h)
      · rw [if_pos hl] at h1
        cases h1
        refine .inr (.inr ⟨fun _ => hl, .inr (.inr h3), ?_⟩)
        rw [if_pos (.inr rfl)] at e
        obtain ⟨o, ho, e⟩ := bind_ok e
        cases o with
        | none => cases e
        | some v2 =>
          refine ⟨v2, ?_, ?_⟩
          · rw [pixelUnit, if_pos h3]; exact ho
          · by_cases hu : v2.unit = some 3
            · left
              refine ⟨hu, ?_⟩
              simp only [hu, Option.getD_some, ne_eq, not_true_eq_false, if_false] at e
              cases e
              obtain ⟨⟩ := v2; simp only at hu; subst hu; rfl
            · right
              refine ⟨hu, ?_⟩
              simp only at e
              rw [if_pos (by
                intro hc
                cases hx : v2.unit with
                | none => rw [hx] at hc; cases hc
                | some k => rw [hx] at hc; simp only [Option.getD_some] at hc; exact hu (hx.trans hc))] at e
              obtain ⟨v3, h3', e⟩ := bind_ok e
              cases e
              exact h3'
      · rw [if_neg hl] at h1
        have hs := cleanCrop_same h1
        refine .inl ⟨h3, hl, ?_⟩
        have hu : v1.unit = some 3 := hs.2.2.2.2.1.trans h3
        rw [if_neg (by rw [hu]; decide)] at e
        simp only [Out.bind, hu, Option.getD_some, ne_eq, not_true_eq_false, if_false] at e
        cases e
        rw [h1]
        obtain ⟨⟩ := v1; simp only at hu; subst hu; rfl
    · rw [if_neg h3] at h1
      cases h1
      by_cases hp : v.unit = none ∨ v.unit = some 0
      · rw [if_pos hp] at e
        refine .inr (.inr ⟨fun hc => absurd hc h3, hp.elim .inl (fun x => .inr (.inl x)), ?_⟩)
        obtain ⟨o, ho, e⟩ := bind_ok e
        cases o with
        | none => cases e
        | some v2 =>
          refine ⟨v2, ?_, ?_⟩
          · rw [pixelUnit, if_neg h3]; exact ho
          · by_cases hu : v2.unit = some 3
            · left
              refine ⟨hu, ?_⟩
              simp only [hu, Option.getD_some, ne_eq, not_true_eq_false, if_false] at e
              cases e
              obtain ⟨⟩ := v2; simp only at hu; subst hu; rfl
            · right
              refine ⟨hu, ?_⟩
              simp only at e
              rw [if_pos (by
                intro hc
                cases hx : v2.unit with
                | none => rw [hx] at hc; cases hc
                | some k => rw [hx] at hc; simp only [Option.getD_some] at hc; exact hu (hx.trans hc))] at e
              obtain ⟨v3, h3', e⟩ := bind_ok e
              cases e
              exact h3'
      · rw [if_neg hp] at e
        have ⟨k, hk⟩ : ∃ k, v.unit = some k := by
          cases hx : v.unit with
          | none => exact absurd (.inl hx) hp
          | some k => exact ⟨k, rfl⟩
        refine .inr (.inl ⟨k, hk, fun hc => hp (.inr (hc ▸ hk)), fun hc => h3 (hc ▸ hk), ?_⟩)
        simp only [Out.bind] at e
        rw [self_unit hk, if_pos (by rw [hk]; intro hc; exact h3 (hk.trans hc))] at e
        split at e <;> cases e
        assumption

/-- What `cleanPixels` gives. -/
theorem cleanPixels_ok {w h : Int} {v v2 : Video} (e : cleanPixels w h v = .ok (some v2)) :
    (v2 = { v with displayW := none, displayH := none } ∧
      ((v.displayW = none ∧ v.displayH = some h) ∨ (v.displayW = some w ∧ v.displayH = none))) ∨
    (∃ dw dh p, unshrink w h dw dh = .ok p ∧
      ((v.displayW = some dw ∧ v.displayH = some dh ∧ dw ≠ 0 ∧ dh ≠ 0) ∨ (v.displayW = none ∧ v.displayH = some dh ∧ dw = w ∧ dh ≠ h) ∨
        (v.displayW = some dw ∧ v.displayH = none ∧ dh = h ∧ dw ≠ w ∧ dw ≠ 0)) ∧
      v2 = { v with
          displayW := if p.1 = w then none else some p.1
          displayH := if p.2.1 = h then none else some p.2.1
          unit := if p.2.2 then some 3 else v.unit }) := by
  unfold cleanPixels at e
  obtain ⟨o, ho, e⟩ := bind_ok e
  unfold displaySizes at ho
  have fin : ∀ {dw dh : Int} {o : Option (Option (Int × Int))}, o = some (some (dw, dh)) → 
      (match o with
        | none => Out.ok none
        | some none => .ok (some { v with displayW := none, displayH := none })
        | some (some (dw, dh)) =>
          (unshrink w h dw dh).bind fun p =>
            .ok (some { v with
              displayW := if p.1 = w then none else some p.1
              displayH := if p.2.1 = h then none else some p.2.1
              unit := if p.2.2 then some 3 else v.unit })) = .ok (some v2) → ∃ p, unshrink w h dw dh = .ok p ∧ v2 = { v with
              displayW := if p.1 = w then none else some p.1
              displayH := if p.2.1 = h then none else some p.2.1
              unit := if p.2.2 then some 3 else v.unit } := by
    intro dw dh o ho e
    subst ho
    obtain ⟨p, hp, e⟩ := bind_ok e
    cases e
    exact ⟨p, hp, rfl⟩
  cases hdw : v.displayW with
  | none =>
    cases hdh : v.displayH with
    | none => rw [hdw, hdh] at ho; cases ho
    | some dh =>
      rw [hdw, hdh] at ho
      simp only at ho
      by_cases hx : dh = h
      · rw [if_pos hx] at ho
        cases ho
        cases e
        exact .inl ⟨rfl, .inl ⟨rfl, by rw [hx]⟩⟩
      · rw [if_neg hx] at ho
        cases ho
        obtain ⟨p, hp, e⟩ := fin rfl e
        exact .inr ⟨w, dh, p, hp, .inr (.inl ⟨rfl, rfl, rfl, hx⟩), e⟩
  | some dw =>
    cases hdh : v.displayH with
    | none =>
      rw [hdw, hdh] at ho
      simp only at ho
      by_cases h0 : dw = 0
      · rw [if_pos h0] at ho; cases ho; cases e
      · rw [if_neg h0] at ho
        by_cases hx : dw = w
        · rw [if_pos hx] at ho
          cases ho
          cases e
          exact .inl ⟨rfl, .inr ⟨by rw [hx], rfl⟩⟩
        · rw [if_neg hx] at ho
          cases ho
          obtain ⟨p, hp, e⟩ := fin rfl e
          exact .inr ⟨dw, h, p, hp, .inr (.inr ⟨rfl, rfl, rfl, hx, h0⟩), e⟩
    | some dh =>
      rw [hdw, hdh] at ho
      simp only at ho
      by_cases h0 : dw = 0
      · rw [if_pos h0] at ho; cases ho; cases e
      · rw [if_neg h0] at ho
        by_cases hx : dh = 0
        · rw [if_pos hx] at ho; cases ho; cases e
        · rw [if_neg hx] at ho
          cases ho
          obtain ⟨p, hp, e⟩ := fin rfl e
          exact .inr ⟨dw, dh, p, hp, .inl ⟨rfl, rfl, h0, hx⟩, e⟩

/-! ### No crash -/

theorem ediv_mul_bounds {a b : Int} (ha : 0 ≤ a) (hb : 0 < b) : 0 ≤ a.tdiv b ∧ a.tdiv b * b ≤ a := by
  rw [Int.tdiv_eq_ediv_of_nonneg ha]
  exact ⟨Int.ediv_nonneg ha (Int.le_of_lt hb), Int.ediv_mul_le a (by omega)⟩

theorem mul_lt_62 {a b : Int} (ha : 0 ≤ a) (ha1 : a < 2 ^ 31) (hb : 0 ≤ b) (hb1 : b < 2 ^ 31) : 0 ≤ a * b ∧ a * b < 2 ^ 62 := by
  refine ⟨Int.mul_nonneg ha hb, ?_⟩
  have h1 : a * b ≤ a * (2 ^ 31 - 1) := Int.mul_le_mul_of_nonneg_left (by omega) ha
  simp only [Int.reducePow, Int.reduceSub] at *
  omega

theorem unshrink_total {w h dw dh : Int} (hw : w < 2 ^ 31) (hh : h < 2 ^ 31) (h0 : 0 < w) (h1 : 0 < h) (hdw : 0 < dw)
    (hdh : 0 < dh ∨ w ≤ dw) : ∃ p, unshrink w h dw dh = .ok p := by
  unfold unshrink
  by_cases hc : dh < h ∧ dw < w
  · rw [if_pos hc]
    have hdh : 0 < dh := by omega
    rw [gcd_pos (Int.le_of_lt hdw) hdh]
    simp only [Out.bind]
    have hw' : dw < 2 ^ 31 := by omega
    have hh' : dh < 2 ^ 31 := by omega
    rw [ck_in _ (by simp only [Int.reducePow, Int.reduceNeg] at *; omega) (by simp only [Int.reducePow] at *; omega),
      ck_in _ (by simp only [Int.reducePow, Int.reduceNeg] at *; omega) (by simp only [Int.reducePow] at *; omega)]
    by_cases hs : serious (Int.gcd dw dh) w h dw dh ≠ 0
    · rw [if_pos hs]
      have one := mul_lt_62 (Int.le_of_lt h1) hh (Int.le_of_lt hdw) hw'
      have two := mul_lt_62 (Int.le_of_lt h0) hw (Int.le_of_lt hdh) hh'
      by_cases hd : dw > dh
      · rw [if_pos hd]
        have b := ediv_mul_bounds one.1 hdh
        unfold scale
        rw [if_neg (by omega), ck_in _ (by simp only [Int.reducePow, Int.reduceNeg] at *; omega) (by simp only [Int.reducePow] at *; omega)]
        simp only [Out.bind]
        have nn := Int.mul_nonneg b.1 (Int.le_of_lt hdh)
        rw [ck_in _ (by simp only [Int.reducePow, Int.reduceNeg] at *; omega) (by simp only [Int.reducePow] at *; omega),
          ck_in _ (by simp only [Int.reducePow, Int.reduceNeg] at *; omega) (by simp only [Int.reducePow] at *; omega)]
        split <;> exact ⟨_, rfl⟩
      · rw [if_neg hd]
        have b := ediv_mul_bounds two.1 hdw
        unfold scale
        rw [if_neg (by omega), ck_in _ (by simp only [Int.reducePow, Int.reduceNeg] at *; omega) (by simp only [Int.reducePow] at *; omega)]
        simp only [Out.bind]
        have nn := Int.mul_nonneg b.1 (Int.le_of_lt hdw)
        rw [ck_in _ (by simp only [Int.reducePow, Int.reduceNeg] at *; omega) (by simp only [Int.reducePow] at *; omega),
          ck_in _ (by simp only [Int.reducePow, Int.reduceNeg] at *; omega) (by simp only [Int.reducePow] at *; omega)]
        split <;> exact ⟨_, rfl⟩
    · rw [if_neg hs]; exact ⟨_, rfl⟩
  · rw [if_neg hc]; exact ⟨_, rfl⟩

/-- An optional value of no more than 31 bits. -/
def In31 (o : Option Int) : Prop := ∀ x, o = some x → 0 ≤ x ∧ x < 2 ^ 31

/-- A Video element with both pixel sizes, and no value of more than 31 bits. -/
structure Sane (v : Video) : Prop where
  pw : v.pixelW ≠ none
  ph : v.pixelH ≠ none
  pw31 : In31 v.pixelW
  ph31 : In31 v.pixelH
  dw31 : In31 v.displayW
  dh31 : In31 v.displayH
  cl : In31 v.cropL
  cr : In31 v.cropR
  ct : In31 v.cropT
  cb : In31 v.cropB

/-- A picture without a size: no pixels, or a display size of 0 pixels (of which the width is given). -/
def Blank (v : Video) : Prop :=
  v.pixelW = some 0 ∨ v.pixelH = some 0 ∨
  ((v.unit = none ∨ v.unit = some 0) ∧ (v.displayW = some 0 ∨ (v.displayW ≠ none ∧ v.displayH = some 0)))

instance (v : Video) : Decidable (Blank v) := by unfold Blank; infer_instance

theorem in31_getD {o : Option Int} (h : In31 o) : 0 ≤ o.getD 0 ∧ o.getD 0 < 2 ^ 31 := by
  cases o with
  | none => exact ⟨by decide, by decide⟩
  | some x => exact h x rfl

theorem cleanCrop_total {v : Video} (cl : In31 v.cropL) (cr : In31 v.cropR) (ct : In31 v.cropT) (cb : In31 v.cropB) (w h : Int) :
    ∃ v', cleanCrop v w h = .ok v' := by
  have a := in31_getD cl
  have b := in31_getD cr
  have c := in31_getD ct
  have d := in31_getD cb
  unfold cleanCrop
  simp only
  rw [ck_in _ (by simp only [Int.reducePow, Int.reduceNeg] at *; omega) (by simp only [Int.reducePow] at *; omega),
    ck_in _ (by simp only [Int.reducePow, Int.reduceNeg] at *; omega) (by simp only [Int.reducePow] at *; omega)]
  split
  · exact ⟨_, rfl⟩
  · split <;> exact ⟨_, rfl⟩

theorem displaySizes_total {v : Video} {w h : Int} (dw31 : In31 v.displayW) (dh31 : In31 v.displayH) (hw : 0 < w) (hh : 0 < h)
    (hd : ¬ (v.displayW = none ∧ v.displayH = none)) (nb : ¬ (v.displayW = some 0 ∨ (v.displayW ≠ none ∧ v.displayH = some 0))) :
    ∃ o, displaySizes w h v.displayW v.displayH = .ok (some o) ∧ ∀ dw dh, o = some (dw, dh) → 0 < dw ∧ (0 < dh ∨ w ≤ dw) := by
  cases hdw : v.displayW with
  | none =>
    cases hdh : v.displayH with
    | none => exact absurd ⟨hdw, hdh⟩ hd
    | some dh =>
      unfold displaySizes
      simp only
      by_cases hx : dh = h
      · rw [if_pos hx]; exact ⟨none, rfl, fun _ _ e => by cases e⟩
      · rw [if_neg hx]; exact ⟨some (w, dh), rfl, fun _ _ e => by cases e; exact ⟨hw, .inr (Int.le_refl _)⟩⟩
  | some dw =>
    have d0 := (dw31 dw hdw).1
    have d1 : dw ≠ 0 := fun hc => nb (.inl (by rw [hdw, hc]))
    cases hdh : v.displayH with
    | none =>
      unfold displaySizes
      simp only
      rw [if_neg d1]
      by_cases hx : dw = w
      · rw [if_pos hx]; exact ⟨none, rfl, fun _ _ e => by cases e⟩
      · rw [if_neg hx]; exact ⟨some (dw, h), rfl, fun _ _ e => by cases e; exact ⟨by omega, .inl hh⟩⟩
    | some dh =>
      have e0 := (dh31 dh hdh).1
      have e1 : dh ≠ 0 := fun hc => nb (.inr ⟨by rw [hdw]; simp, by rw [hdh, hc]⟩)
      unfold displaySizes
      simp only
      rw [if_neg d1, if_neg e1]
      exact ⟨some (dw, dh), rfl, fun _ _ e => by cases e; exact ⟨by omega, .inl (by omega)⟩⟩

theorem cleanPixels_total {v : Video} {w h : Int} (dw31 : In31 v.displayW) (dh31 : In31 v.displayH) (hw : 0 < w ∧ w < 2 ^ 31) (hh : 0 < h ∧ h < 2 ^ 31)
    (hd : ¬ (v.displayW = none ∧ v.displayH = none)) :
    (v.displayW = some 0 ∨ (v.displayW ≠ none ∧ v.displayH = some 0) → cleanPixels w h v = .ok none) ∧
    (¬ (v.displayW = some 0 ∨ (v.displayW ≠ none ∧ v.displayH = some 0)) → ∃ v2, cleanPixels w h v = .ok (some v2)) := by
  constructor
  · intro hb
    unfold cleanPixels
    have : displaySizes w h v.displayW v.displayH = .ok none := by
      unfold displaySizes
      cases hdw : v.displayW with
      | none => rw [hdw] at hb; rcases hb with hb | hb
                · cases hb
                · exact absurd rfl hb.1
      | some dw =>
        cases hdh : v.displayH with
        | none =>
          simp only
          rcases hb with hb | hb
          · rw [hdw] at hb; cases hb; rw [if_pos rfl]
          · rw [hdh] at hb; cases hb.2
        | some dh =>
          simp only
          by_cases h0 : dw = 0
          · rw [if_pos h0]
          · rw [if_neg h0]
            rcases hb with hb | hb
            · rw [hdw] at hb; cases hb; exact absurd rfl h0
            · rw [hdh] at hb; cases hb.2; rw [if_pos rfl]
    rw [this]
    rfl
  · intro nb
    obtain ⟨o, ho, hp⟩ := displaySizes_total dw31 dh31 hw.1 hh.1 hd nb
    unfold cleanPixels
    rw [ho]
    cases o with
    | none => exact ⟨_, rfl⟩
    | some p =>
      obtain ⟨dw, dh⟩ := p
      have := hp dw dh rfl
      obtain ⟨q, hq⟩ := unshrink_total hw.2 hh.2 hw.1 hh.1 this.1 this.2
      simp only [Out.bind, hq]
      exact ⟨_, rfl⟩

/-- A sane picture: whether the track stays. -/
theorem cleanDisplay_total {v : Video} (s : Sane v) :
    (Blank v → cleanDisplay v = .ok none) ∧ (¬ Blank v → ∃ v', cleanDisplay v = .ok (some v')) := by
  obtain ⟨w, hw⟩ : ∃ w, v.pixelW = some w := by
    cases h : v.pixelW with
    | none => exact absurd h s.pw
    | some w => exact ⟨w, rfl⟩
  obtain ⟨h, hh⟩ : ∃ w, v.pixelH = some w := by
    cases h : v.pixelH with
    | none => exact absurd h s.ph
    | some w => exact ⟨w, rfl⟩
  have w31 := s.pw31 w hw
  have h31 := s.ph31 h hh
  unfold cleanDisplay
  rw [hw, hh]
  simp only [toInt_of w31.1 w31.2, toInt_of h31.1 h31.2]
  by_cases hz : w = 0 ∨ h = 0
  · rw [if_pos hz]
    refine ⟨fun _ => rfl, fun nb => absurd ?_ nb⟩
    rcases hz with rfl | rfl
    · exact .inl hw
    · exact .inr (.inl hh)
  · rw [if_neg hz]
    have hnb : Blank v ↔ (v.unit = none ∨ v.unit = some 0) ∧ (v.displayW = some 0 ∨ (v.displayW ≠ none ∧ v.displayH = some 0)) := by
      constructor
      · rintro (hb | hb | hb)
        · rw [hw] at hb; cases hb; exact absurd (.inl rfl) hz
        · rw [hh] at hb; cases hb; exact absurd (.inr rfl) hz
        · exact hb
      · exact fun hb => .inr (.inr hb)
    rw [hnb]
    by_cases hd : v.displayW = none ∧ v.displayH = none
    · rw [if_pos hd]
      refine ⟨fun hb => ?_, fun _ => ⟨_, rfl⟩⟩
      rcases hb.2 with hb | hb
      · rw [hd.1] at hb; cases hb
      · exact absurd hd.1 hb.1
    · rw [if_neg hd]
      have tail : ∀ v2 : Video, In31 v2.cropL → In31 v2.cropR → In31 v2.cropT → In31 v2.cropB →
          ∃ v', (let v := { v2 with unit := some (v2.unit.getD 0) }
            if v.unit ≠ some 3 then
              (cleanCrop v (v.displayW.getD w) (v.displayH.getD h)).bind fun v => Out.ok (some v)
            else .ok (some v)) = .ok (some v') := by
        intro v2 a b c d
        simp only
        split
        · obtain ⟨v3, e3⟩ := cleanCrop_total (v := { v2 with unit := some (v2.unit.getD 0) }) a b c d (v2.displayW.getD w) (v2.displayH.getD h)
          simp only [e3]
          exact ⟨_, rfl⟩
        · exact ⟨_, rfl⟩
      have crops : ∀ v2 v3 : Video, cleanPixels w h v2 = .ok (some v3) → v3.cropL = v2.cropL ∧ v3.cropR = v2.cropR ∧ v3.cropT = v2.cropT ∧ v3.cropB = v2.cropB := by
        intro v2 v3 e
        rcases cleanPixels_ok e with ⟨rfl, _⟩ | ⟨_, _, _, _, _, rfl⟩ <;> exact ⟨rfl, rfl, rfl, rfl⟩
      have pix := cleanPixels_total (v := v) s.dw31 s.dh31 ⟨by omega, w31.2⟩ ⟨by omega, h31.2⟩ hd
      unfold cleanRatio
      by_cases h3 : v.unit = some 3
      · have nb : ¬ ((v.unit = none ∨ v.unit = some 0) ∧ (v.displayW = some 0 ∨ (v.displayW ≠ none ∧ v.displayH = some 0))) := by
          rw [h3]; rintro ⟨hb | hb, _⟩ <;> cases hb
        refine ⟨fun hb => absurd hb nb, fun _ => ?_⟩
        rw [if_pos h3]
        by_cases hl : (v.displayW = none ∨ v.displayW = some w) ∧ (v.displayH = none ∨ v.displayH = some h)
        · rw [if_pos hl]
          simp only [Out.bind]
          rw [if_pos (.inr trivial)]
          have nz : ¬ (v.displayW = some 0 ∨ (v.displayW ≠ none ∧ v.displayH = some 0)) := by
            rintro (hb | hb)
            · rcases hl.1 with hl | hl
              · rw [hl] at hb; cases hb
              · rw [hl] at hb; cases hb; exact hz (.inl rfl)
            · rcases hl.2 with hl | hl
              · rw [hl] at hb; cases hb.2
              · rw [hl] at hb; cases hb.2; exact hz (.inr rfl)
          obtain ⟨v2, e2⟩ := (cleanPixels_total (v := { v with unit := some 0 }) s.dw31 s.dh31 ⟨by omega, w31.2⟩ ⟨by omega, h31.2⟩ hd).2 nz
          have cr := crops _ _ e2
          simp only [e2]
          exact tail v2 (by rw [cr.1]; exact s.cl) (by rw [cr.2.1]; exact s.cr) (by rw [cr.2.2.1]; exact s.ct) (by rw [cr.2.2.2]; exact s.cb)
        · rw [if_neg hl]
          obtain ⟨v1, e1⟩ := cleanCrop_total s.cl s.cr s.ct s.cb 0 0
          have u1 := (cleanCrop_same e1).2.2.2.2.1.trans h3
          rw [e1]
          simp only [Out.bind]
          rw [u1, if_neg (by decide)]
          simp only [u1, Option.getD_some, ne_eq, not_true_eq_false, if_false]
          exact ⟨_, rfl⟩
      · rw [if_neg h3]
        simp only [Out.bind]
        by_cases hp : v.unit = none ∨ v.unit = some 0
        · rw [if_pos hp]
          refine ⟨fun hb => by rw [pix.1 hb.2], fun nb => ?_⟩
          obtain ⟨v2, e2⟩ := pix.2 fun hb => nb ⟨hp, hb⟩
          have cr := crops _ _ e2
          simp only [e2]
          exact tail v2 (by rw [cr.1]; exact s.cl) (by rw [cr.2.1]; exact s.cr) (by rw [cr.2.2.1]; exact s.ct) (by rw [cr.2.2.2]; exact s.cb)
        · rw [if_neg hp]
          refine ⟨fun hb => absurd hb.1 hp, fun _ => ?_⟩
          exact tail v s.cl s.cr s.ct s.cb

/-! ### The loop over the tracks -/

/-- What a track keeps when the loop leaves it. -/
structure KeptAs (cfg : Config) (profile : Nat) (t t' : Track) : Prop where
  number : t'.number = t.number
  uid : t'.uid = t.uid
  type : t'.type = t.type
  codec : t'.codec = t.codec
  ops : t'.ops = t.ops
  flag : t'.flagEnabled = t.flagEnabled
  rest : t'.rest = t.rest
  links : t'.links = cleanLinks cfg.attachments t.links
  audio : cleanAudio (cfg.guess t.codec t.rest) t.audio = .ok t'.audio
  webm : ∃ ty, t.type = some ty ∧ webmOk profile (toInt ty) t.codec = .ok true

theorem cleanRest_ok {cfg : Config} {side side' : Side} {n type : Int} {t : Track} {f : Fate} (e : cleanRest cfg side n type t = .ok (side', f)) :
    side' = side ∧ ∃ v, forceAlt side.alt n t.video = .ok v ∧
      ((f = .drop ∧ webmOk side.profile type t.codec = .ok false) ∨
       (webmOk side.profile type t.codec = .ok true ∧ ∃ a, cleanAudio (cfg.guess t.codec t.rest) t.audio = .ok a ∧
          f = .keep { t with video := v, audio := a, links := cleanLinks cfg.attachments t.links })) := by
  unfold cleanRest at e
  obtain ⟨v, hv, e⟩ := bind_ok e
  obtain ⟨ok, hok, e⟩ := bind_ok e
  simp only at hok e
  cases ok with
  | true =>
    simp only [if_true] at e
    obtain ⟨a, ha, e⟩ := bind_ok e
    cases e
    exact ⟨rfl, v, hv, .inr ⟨hok, a, ha, rfl⟩⟩
  | false =>
    cases e
    exact ⟨rfl, v, hv, .inl ⟨rfl, hok⟩⟩

/-- The stereo mode after the conversion of the old values (both eyes: side by side, one eye: mono). -/
def newEyes (cfg : Config) (v : Video) : Video :=
  match v.eyes with
  | none => v
  | some e =>
    if cfg.oldSource ∧ toInt e ≠ 0 ∧ toInt e ≤ 3 then v.setEyes true (if toInt e = 3 then 1 else 0) else v

/-- The profile after a track. -/
def newProfile (cfg : Config) (profile : Nat) (v : Video) : Nat :=
  match v.eyes with
  | none => profile
  | some e => if cfg.oldSource ∧ toInt e ≠ 0 ∧ toInt e ≤ 3 then 4 else profile

theorem cleanStereo_ok {cfg : Config} {side : Side} {n type : Int} {done todo : List Track} {t : Track} {v : Video} {r : Side × Fate}
    (hv : t.video = some v) (e : cleanStereo cfg side n type done t v todo = .ok r) :
    cleanRest cfg { side with profile := newProfile cfg side.profile v } n type { t with video := some (newEyes cfg v) } = .ok r ∨
    (∃ x ts, v.eyes = some x ∧ cfg.oldSource = true ∧ (toInt x = 1 ∨ toInt x = 2) ∧
      combine done { t with video := some (v.setEyes true 0) } (toInt x) todo = .ok (some ts) ∧ r = ({ side with profile := 4 }, .again ts)) := by
  have hself : ({ t with video := some v } : Track) = t := by obtain ⟨⟩ := t; simp only at hv; subst hv; rfl
  unfold cleanStereo at e
  cases hx : v.eyes with
  | none =>
    rw [hx] at e
    simp only at e
    left
    rw [newEyes, newProfile, hx]
    simp only [hself]
    exact e
  | some x =>
    rw [hx] at e
    simp only at e
    by_cases hc : cfg.oldSource ∧ toInt x ≠ 0 ∧ toInt x ≤ 3
    · rw [if_pos hc] at e
      by_cases h3 : toInt x = 3
      · rw [if_pos h3] at e
        left
        rw [newEyes, newProfile, hx]
        simp only [if_pos hc, if_pos h3]
        exact e
      · rw [if_neg h3] at e
        obtain ⟨o, ho, e⟩ := bind_ok e
        cases o with
        | none =>
          left
          rw [newEyes, newProfile, hx]
          simp only [if_pos hc, if_neg h3]
          exact e
        | some ts =>
          right
          cases e
          refine ⟨x, ts, rfl, hc.1, ?_, ho, rfl⟩
          unfold combine at ho
          by_cases h12 : toInt x = 1 ∨ toInt x = 2
          · exact h12
          · rw [if_neg h12] at ho; cases ho
    · rw [if_neg hc] at e
      left
      rw [newEyes, newProfile, hx]
      simp only [if_neg hc, hself]
      exact e

/-- Everything a turn of the loop can do. -/
theorem cleanTrack_ok {cfg : Config} {side side' : Side} {done todo : List Track} {t : Track} {f : Fate}
    (e : cleanTrack cfg side done t todo = .ok (side', f)) :
    (f = .drop ∧ (side'.profile = side.profile ∨ side'.profile = 4)) ∨
    (∃ t', f = .keep t' ∧ KeptAs cfg side'.profile t t' ∧ t.number ≠ none ∧ (t.codec ≠ none ∨ t.ops ≠ []) ∧
      (side'.profile = side.profile ∨ side'.profile = 4) ∧
      ((t.video = none ∧ t'.video = none) ∨
        ∃ v v1 v', t.video = some v ∧ cleanDisplay v = .ok (some v1) ∧ t'.video = some v' ∧ (v' = newEyes cfg v1 ∨ v' = { newEyes cfg v1 with stereo := some 13 }))) ∨
    (∃ ts v v1 x, f = .again ts ∧ t.video = some v ∧ cleanDisplay v = .ok (some v1) ∧ v1.eyes = some x ∧ cfg.oldSource = true ∧
      (toInt x = 1 ∨ toInt x = 2) ∧ side'.profile = 4 ∧
      combine done { t with video := some (v1.setEyes true 0) } (toInt x) todo = .ok (some ts)) := by
  unfold cleanTrack at e
  cases hn : t.number with
  | none => rw [hn] at e; cases e; exact .inl ⟨rfl, .inl rfl⟩
  | some tn =>
    rw [hn] at e
    simp only at e
    by_cases hc : t.codec = none ∧ t.ops = []
    · rw [if_pos hc] at e; cases e; exact .inl ⟨rfl, .inl rfl⟩
    · rw [if_neg hc] at e
      have hco : t.codec ≠ none ∨ t.ops ≠ [] := by
        by_cases ha : t.codec = none
        · exact .inr fun hb => hc ⟨ha, hb⟩
        · exact .inl ha
      cases ht : t.type with
      | none => rw [ht] at e; cases e; exact .inl ⟨rfl, .inl rfl⟩
      | some ty =>
        rw [ht] at e
        simp only at e
        obtain ⟨alt, ha, e⟩ := bind_ok e
        cases hv : t.video with
        | none =>
          rw [hv] at e
          obtain ⟨rfl, v, h1, h2⟩ := cleanRest_ok e
          rcases h2 with ⟨rfl, _⟩ | ⟨hw, a, hau, rfl⟩
          · exact .inl ⟨rfl, .inl rfl⟩
          · refine .inr (.inl ⟨_, rfl, ⟨hn ▸ rfl, rfl, rfl, rfl, rfl, rfl, rfl, rfl, hau, ty, ht, hw⟩, by simp, hco, .inl rfl, .inl ⟨rfl, ?_⟩⟩)
            simp only
            rw [hv] at h1
            unfold forceAlt at h1
            by_cases hs : altSeen alt (toInt tn)
            · rw [if_pos hs] at h1
              split at h1 <;> cases h1
              rfl
            · rw [if_neg hs] at h1; cases h1; rfl
        | some v0 =>
          rw [hv] at e
          simp only at e
          obtain ⟨o, ho, e⟩ := bind_ok e
          cases o with
          | none => cases e; exact .inl ⟨rfl, .inl rfl⟩
          | some v1 =>
            simp only at e
            rcases cleanStereo_ok rfl e with e | ⟨x, ts, hx, hold, h12, hcomb, hr⟩
            · obtain ⟨rfl, v, h1, h2⟩ := cleanRest_ok e
              have hp : newProfile cfg side.profile v1 = side.profile ∨ newProfile cfg side.profile v1 = 4 := by
                unfold newProfile
                split
                · exact .inl rfl
                · split
                  · exact .inr rfl
                  · exact .inl rfl
              rcases h2 with ⟨rfl, _⟩ | ⟨hw, a, hau, rfl⟩
              · exact .inl ⟨rfl, hp⟩
              · refine .inr (.inl ⟨_, rfl, ⟨hn.symm, rfl, ht.symm, rfl, rfl, rfl, rfl, rfl, hau, ty, ht, hw⟩, by simp, hco, hp, .inr ?_⟩)
                simp only at h1
                unfold forceAlt at h1
                by_cases hs : altSeen alt (toInt tn)
                · rw [if_pos hs] at h1
                  split at h1
                  · cases h1
                  · cases h1; exact ⟨v0, v1, _, rfl, ho, rfl, .inl rfl⟩
                  · cases h1; exact ⟨v0, v1, _, rfl, ho, rfl, .inr rfl⟩
                · rw [if_neg hs] at h1; cases h1; exact ⟨v0, v1, _, rfl, ho, rfl, .inl rfl⟩
            · cases hr
              exact .inr (.inr ⟨ts, v0, v1, x, rfl, rfl, ho, hx, hold, h12, rfl, hcomb⟩)

/-- Induction over the loop. -/
theorem cleanLoop_inv {cfg : Config} (I : Side → List Track → List Track → Prop)
    (hdrop : ∀ side done t todo side', I side done (t :: todo) → cleanTrack cfg side done t todo = .ok (side', .drop) → I side' done todo)
    (hkeep : ∀ side done t todo side' t', I side done (t :: todo) → cleanTrack cfg side done t todo = .ok (side', .keep t') → I side' (done ++ [t']) todo)
    (hagain : ∀ side done t todo side' ts, I side done (t :: todo) → cleanTrack cfg side done t todo = .ok (side', .again ts) → I side' [] ts) :
    ∀ (fuel : Nat) (side : Side) (done todo : List Track) (r : Side × List Track), I side done todo →
      cleanLoop cfg fuel side done todo = .ok r → I r.1 r.2 []
  | 0, side, done, [], r, hI, e => by cases e; exact hI
  | fuel + 1, side, done, [], r, hI, e => by cases e; exact hI
  | 0, side, done, t :: todo, r, hI, e => by cases e
  | fuel + 1, side, done, t :: todo, r, hI, e => by
    unfold cleanLoop at e
    obtain ⟨⟨s', f⟩, hf, e⟩ := bind_ok e
    cases f with
    | drop => exact cleanLoop_inv I hdrop hkeep hagain fuel _ _ _ _ (hdrop _ _ _ _ _ hI hf) e
    | keep t' => exact cleanLoop_inv I hdrop hkeep hagain fuel _ _ _ _ (hkeep _ _ _ _ _ _ hI hf) e
    | again ts => exact cleanLoop_inv I hdrop hkeep hagain fuel _ _ _ _ (hagain _ _ _ _ _ _ hI hf) e

theorem cleanTracks_ok {cfg : Config} {fuel : Nat} {side : Side} {ts : List Track} {r : Side × List Track}
    (e : cleanTracks cfg fuel side ts = .ok r) :
    ∃ s, cleanLoop cfg fuel side [] ts = .ok (s, r.2) ∧ r.1.profile = s.profile ∧ r.2 ≠ [] := by
  unfold cleanTracks at e
  obtain ⟨⟨s, out⟩, h, e⟩ := bind_ok e
  by_cases hz : out = []
  · rw [if_pos hz] at e; cases e
  · rw [if_neg hz] at e; cases e; exact ⟨s, h, rfl, hz⟩

/-! ### New numbers -/

theorem fresh_ok {uids : List (Option Int)} : ∀ {fuel : Nat} {n m : Int}, fresh uids fuel n = .ok m → some m ∉ uids ∧ n ≤ m
  | 0, _, _, e => by cases e
  | fuel + 1, n, m, e => by
    unfold fresh at e
    by_cases h1 : n ≥ 2 ^ 31
    · rw [if_pos h1] at e; cases e
    · rw [if_neg h1] at e
      by_cases h2 : hasUid uids n
      · rw [if_pos h2] at e
        have := fresh_ok e
        exact ⟨this.1, by omega⟩
      · rw [if_neg h2] at e
        cases e
        refine ⟨fun h => h2 ?_, Int.le_refl _⟩
        unfold hasUid
        rw [List.contains_iff_mem]
        exact h

theorem otherEye_ok {want : Int} : ∀ {ts mid after : List Track} {o : Track} {ov : Video}, otherEye want ts = some (mid, o, ov, after) →
    ts = mid ++ o :: after ∧ o.video = some ov ∧ ov.eyes = some want
  | [], _, _, _, _, e => by cases e
  | t :: ts, mid, after, o, ov, e => by
    unfold otherEye at e
    have rec' : ∀ (e : (otherEye want ts).map (fun r => (t :: r.1, r.2)) = some (mid, o, ov, after)),
        t :: ts = mid ++ o :: after ∧ o.video = some ov ∧ ov.eyes = some want := by
      intro e
      cases hr : otherEye want ts with
      | none => rw [hr] at e; cases e
      | some r =>
        obtain ⟨a, b, c, d⟩ := r
        rw [hr] at e
        simp only [Option.map_some, Option.some.injEq, Prod.mk.injEq] at e
        obtain ⟨rfl, rfl, rfl, rfl⟩ := e
        have := otherEye_ok hr
        exact ⟨by rw [this.1]; rfl, this.2⟩
    cases hv : t.video with
    | none => rw [hv] at e; exact rec' e
    | some v =>
      rw [hv] at e
      simp only at e
      by_cases hx : v.eyes = some want
      · rw [if_pos hx] at e
        cases e
        exact ⟨rfl, hv, hx⟩
      · rw [if_neg hx] at e; exact rec' e

/-- What combining two eyes makes of the tracks. -/
structure Combined (done : List Track) (t : Track) (s : Int) (todo ts : List Track) where
  mid : List Track
  o : Track
  ov : Video
  after : List Track
  tn : Int
  tu : Int
  number : Int
  uid : Int
  pu : Int
  todoEq : todo = mid ++ o :: after
  video : o.video = some ov
  eyes : ov.eyes = some (3 - s)
  hasNumber : t.number = some tn
  hasUid : t.uid = some tu
  later : toInt tn < number
  freshNumber : ∀ x ∈ done ++ t :: mid ++ o :: after, x.number ≠ some number
  freshUid : ∀ x ∈ done ++ t :: mid ++ o :: after, x.uid ≠ some uid
  plane : o.uid = some pu ∨ (o.uid = none ∧ pu ≠ uid ∧ ∀ x ∈ done ++ t :: mid ++ o :: after, x.uid ≠ some pu)
  tsEq : ts = done ++ t :: mid ++ { o with video := some (ov.setEyes false 0), uid := some pu } :: after ++
    [{ combined t number uid with ops := t.ops ++ [if s = 2 then [(tu, 0), (pu, 1)] else [(tu, 1), (pu, 0)]] }]

theorem combine_ok {done todo ts : List Track} {t : Track} {s : Int} (e : combine done t s todo = .ok (some ts)) :
    Nonempty (Combined done t s todo ts) := by
  unfold combine at e
  by_cases hs : s = 1 ∨ s = 2
  · rw [if_pos hs] at e
    cases ho : otherEye (3 - s) todo with
    | none => rw [ho] at e; cases e
    | some r =>
      obtain ⟨mid, o, ov, after⟩ := r
      have oe := otherEye_ok ho
      rw [ho] at e
      simp only at e
      cases hn : t.number with
      | none => rw [hn] at e; cases e
      | some tn =>
        rw [hn] at e
        simp only at e
        obtain ⟨number, h1, e⟩ := bind_ok e
        cases hu : t.uid with
        | none => rw [hu] at e; cases e
        | some tu =>
          rw [hu] at e
          simp only at e
          obtain ⟨uid, h2, e⟩ := bind_ok e
          obtain ⟨p, h3, e⟩ := bind_ok e
          simp only [Out.ok.injEq, Option.some.injEq] at e
          have f1 := fresh_ok h1
          have f2 := fresh_ok h2
          have memN : ∀ x ∈ done ++ t :: mid ++ o :: after, x.number ≠ some number := by
            intro x hx hc
            apply f1.1
            rw [← hc]
            simp only [List.map_append, List.map_cons, List.mem_append, List.mem_cons, List.mem_map] at hx ⊢
            rcases hx with (hx | rfl | hx) | rfl | hx
            · exact .inl (.inl (.inl ⟨x, hx, rfl⟩))
            · exact .inl (.inl (.inr (.inl rfl)))
            · exact .inl (.inl (.inr (.inr ⟨x, hx, rfl⟩)))
            · exact .inl (.inr (.inl rfl))
            · exact .inl (.inr (.inr ⟨x, hx, rfl⟩))
          have memU : ∀ (y : Int) (c : Track), some y ∉ (((done ++ t :: mid ++ { o with video := some (ov.setEyes false 0) } :: after) ++ [c]).map (·.uid)) →
              (∀ x ∈ done ++ t :: mid ++ o :: after, x.uid ≠ some y) ∧ c.uid ≠ some y := by
            intro y c hy
            refine ⟨fun x hx hc => hy ?_, fun hc => hy ?_⟩
            · rw [← hc]
              simp only [List.map_append, List.map_cons, List.mem_append, List.mem_cons, List.mem_map] at hx ⊢
              rcases hx with (hx | rfl | hx) | rfl | hx
              · exact .inl (.inl (.inl ⟨x, hx, rfl⟩))
              · exact .inl (.inl (.inr (.inl rfl)))
              · exact .inl (.inl (.inr (.inr ⟨x, hx, rfl⟩)))
              · exact .inl (.inr (.inl rfl))
              · exact .inl (.inr (.inr ⟨x, hx, rfl⟩))
            · rw [← hc]
              simp
          refine ⟨⟨mid, o, ov, after, tn, tu, number, uid, p.1, oe.1, oe.2.1, oe.2.2, hn, hu, by have := f1.2; omega, memN, (memU uid _ f2.1).1, ?_, e.symm⟩⟩
          unfold planeUid at h3
          cases hou : o.uid with
          | some u =>
            simp only [hou] at h3
            cases h3
            exact .inl rfl
          | none =>
            simp only [hou] at h3
            obtain ⟨n, hf, h3⟩ := bind_ok h3
            cases h3
            have f3 := memU n (combined t number uid) (by rw [hou]; exact (fresh_ok hf).1)
            exact .inr ⟨rfl, fun (hc : n = uid) => f3.2 (by rw [hc]; rfl), f3.1⟩
  · rw [if_neg hs] at e; cases e

end Verif.Mkclean.Tracks
