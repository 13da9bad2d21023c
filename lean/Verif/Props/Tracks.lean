import Verif.Mkclean.TracksLemmas
/-!
What mkclean does to the tracks of a file: the size a picture is shown with (C139, C141), its crop (C140), cleaning twice (C142).
-/
set_option linter.unusedSimpArgs false
namespace Verif.Mkclean.Tracks
open Verif Verif.Mkv

/-! ### Specification -/

/-- The width a picture is shown with: DisplayWidth, or the pixels left by the crop. -/
def Video.shownW (v : Video) : Int := v.displayW.getD (v.pixelW.getD 0 - v.cropL.getD 0 - v.cropR.getD 0)

/-- The height a picture is shown with: DisplayHeight, or the pixels left by the crop. -/
def Video.shownH (v : Video) : Int := v.displayH.getD (v.pixelH.getD 0 - v.cropT.getD 0 - v.cropB.getD 0)

/-- The crop of a picture: left, right, top, bottom. -/
def Video.crop (v : Video) : Int × Int × Int × Int := (v.cropL.getD 0, v.cropR.getD 0, v.cropT.getD 0, v.cropB.getD 0)

/-- A picture of `w` by `h` pixels, with no negative size. -/
structure Picture (v : Video) (w h : Int) : Prop where
  pw : v.pixelW = some w
  ph : v.pixelH = some h
  w0 : 0 < w
  w1 : w < 2 ^ 31
  h0 : 0 < h
  h1 : h < 2 ^ 31
  dw : ∀ x, v.displayW = some x → 0 ≤ x
  dh : ∀ x, v.displayH = some x → 0 ≤ x

/-- The same picture: in pixels (0) or as an aspect ratio (3) its shape is the same, in another unit its size is. -/
def SameLook (a b : Video) : Prop :=
  a.pixelW = b.pixelW ∧ a.pixelH = b.pixelH ∧
  if a.unit.getD 0 = 0 ∨ a.unit.getD 0 = 3 then
    (b.unit.getD 0 = 0 ∨ b.unit.getD 0 = 3) ∧ a.shownW * b.shownH = b.shownW * a.shownH ∧
    (0 < a.shownW → 0 < a.shownH → 0 < b.shownW ∧ 0 < b.shownH)
  else b.unit = a.unit ∧ b.shownW = a.shownW ∧ b.shownH = a.shownH

/-! ### Proofs -/

/-- The crop is kept or dropped altogether. -/
theorem crop_or {v v' : Video} {w h : Int} (p : Picture v w h) (e : cleanDisplay v = .ok (some v')) :
    v'.crop = v.crop ∨ v'.crop = (0, 0, 0, 0) := by
  have cc : ∀ {u u' : Video} {w h : Int}, cleanCrop u w h = .ok u' → u'.crop = u.crop ∨ u'.crop = (0, 0, 0, 0) := by
    intro u u' w h e
    rcases cleanCrop_ok e with ⟨rfl, _⟩ | ⟨rfl, _⟩
    · exact .inr rfl
    · refine .inl ?_
      simp only [Video.crop, Video.keepCrop, keep_getD]
  rcases cleanDisplay_cases p.pw p.ph ⟨p.w0, p.w1⟩ ⟨p.h0, p.h1⟩ e with ⟨_, _, rfl⟩ | ⟨_, ⟨_, _, e⟩ | ⟨_, _, _, _, e⟩ | ⟨_, _, v2, e2, h2⟩⟩
  · exact .inl rfl
  · exact cc e
  · exact cc e
  · have hv2 : v2.crop = v.crop := by
      rcases cleanPixels_ok e2 with ⟨rfl, _⟩ | ⟨_, _, _, _, _, rfl⟩ <;> rfl
    rcases h2 with ⟨_, rfl⟩ | ⟨_, e⟩
    · exact .inl hv2
    · have := cc e; rw [← hv2]; exact this

/-- The pixel sizes and the stereo mode are not touched. -/
theorem display_same {v v' : Video} {w h : Int} (p : Picture v w h) (e : cleanDisplay v = .ok (some v')) :
    v'.pixelW = v.pixelW ∧ v'.pixelH = v.pixelH ∧ v'.stereo = v.stereo ∧ v'.oldStereo = v.oldStereo := by
  rcases cleanDisplay_cases p.pw p.ph ⟨p.w0, p.w1⟩ ⟨p.h0, p.h1⟩ e with ⟨_, _, rfl⟩ | ⟨_, ⟨_, _, e⟩ | ⟨_, _, _, _, e⟩ | ⟨_, _, v2, e2, h2⟩⟩
  · exact ⟨rfl, rfl, rfl, rfl⟩
  · have := cleanCrop_same e; exact ⟨this.1, this.2.1, this.2.2.2.2.2⟩
  · have := cleanCrop_same e; exact ⟨this.1, this.2.1, this.2.2.2.2.2⟩
  · have hv2 : v2.pixelW = v.pixelW ∧ v2.pixelH = v.pixelH ∧ v2.stereo = v.stereo ∧ v2.oldStereo = v.oldStereo := by
      rcases cleanPixels_ok e2 with ⟨rfl, _⟩ | ⟨_, _, _, _, _, rfl⟩ <;> exact ⟨rfl, rfl, rfl, rfl⟩
    rcases h2 with ⟨_, rfl⟩ | ⟨_, e⟩
    · exact hv2
    · have := cleanCrop_same e
      exact ⟨this.1.trans hv2.1, this.2.1.trans hv2.2.1, this.2.2.2.2.2.1.trans hv2.2.2.1, this.2.2.2.2.2.2.trans hv2.2.2.2⟩

theorem size_pos {w h dw dh : Int} {p : Int × Int × Bool} (hw : 0 < w) (hh : 0 < h) (hdw : 0 < dw) (hdh : 0 < dh)
    (e : unshrink w h dw dh = .ok p) : 0 < p.1 ∧ 0 < p.2.1 := by
  have u := unshrink_ok e
  cases hb : p.2.2 with
  | true => have := (u.2.1 hb).1; subst this; exact ⟨hdw, hdh⟩
  | false =>
    rcases u.2.2 hb with rfl | ⟨_, _, h1 | h1 | h1 | h1⟩
    · exact ⟨hdw, hdh⟩
    · have e1 : 0 < p.1 * dh := Int.mul_pos (by omega) hdh
      refine ⟨by omega, Int.pos_of_mul_pos_left ?_ hdw⟩
      rw [← u.1]; exact e1
    · have e1 : 0 < p.2.1 * dw := Int.mul_pos (by omega) hdw
      refine ⟨Int.pos_of_mul_pos_left ?_ hdh, by omega⟩
      rw [u.1]; exact e1
    · omega
    · omega

theorem getD_if (p w : Int) : (if p = w then none else some p).getD w = p := by
  by_cases h : p = w
  · rw [if_pos h, h]; rfl
  · rw [if_neg h]; rfl

theorem crop_eq {v : Video} {a b c d : Int} (h : v.crop = (a, b, c, d)) :
    v.cropL.getD 0 = a ∧ v.cropR.getD 0 = b ∧ v.cropT.getD 0 = c ∧ v.cropB.getD 0 = d := by
  simp only [Video.crop, Prod.mk.injEq] at h
  exact h

theorem C139_aspect_ratio_partial (v v' : Video) (w h : Int) (p : Picture v w h) (e : cleanDisplay v = .ok (some v'))
    (hcw : (v.cropL.getD 0 = 0 ∧ v.cropR.getD 0 = 0) ∨ (v.displayW ≠ none ∧ v'.displayW ≠ none))
    (hch : (v.cropT.getD 0 = 0 ∧ v.cropB.getD 0 = 0) ∨ (v.displayH ≠ none ∧ v'.displayH ≠ none)) :
    SameLook v v' := by
  have same := display_same p e
  have crop := crop_or p e
  have gw : ∀ {o : Option Int} (a b : Int), o ≠ none → o.getD a = o.getD b := by
    intro o a b ho
    cases o with
    | none => exact absurd rfl ho
    | some x => rfl
  have sw : v.shownW = v.displayW.getD w ∧ v'.shownW = v'.displayW.getD w := by
    unfold Video.shownW
    rw [same.1, p.pw]
    simp only [Option.getD_some]
    rcases hcw with hz | hz
    · refine ⟨by rw [hz.1, hz.2]; simp only [Int.sub_zero], ?_⟩
      have : v'.cropL.getD 0 = 0 ∧ v'.cropR.getD 0 = 0 := by
        rcases crop with hc | hc
        · have := crop_eq hc; rw [this.1, this.2.1]; exact hz
        · have := crop_eq hc; exact ⟨this.1, this.2.1⟩
      rw [this.1, this.2]; simp only [Int.sub_zero]
    · exact ⟨gw _ _ hz.1, gw _ _ hz.2⟩
  have sh : v.shownH = v.displayH.getD h ∧ v'.shownH = v'.displayH.getD h := by
    unfold Video.shownH
    rw [same.2.1, p.ph]
    simp only [Option.getD_some]
    rcases hch with hz | hz
    · refine ⟨by rw [hz.1, hz.2]; simp only [Int.sub_zero], ?_⟩
      have : v'.cropT.getD 0 = 0 ∧ v'.cropB.getD 0 = 0 := by
        rcases crop with hc | hc
        · have := crop_eq hc; rw [this.2.2.1, this.2.2.2]; exact hz
        · have := crop_eq hc; exact ⟨this.2.2.1, this.2.2.2⟩
      rw [this.1, this.2]; simp only [Int.sub_zero]
    · exact ⟨gw _ _ hz.1, gw _ _ hz.2⟩
  refine ⟨same.1.symm, same.2.1.symm, ?_⟩
  rw [sw.1, sw.2, sh.1, sh.2]
  have unch : v'.displayW = v.displayW → v'.displayH = v.displayH → v'.unit = v.unit →
      if v.unit.getD 0 = 0 ∨ v.unit.getD 0 = 3 then
        (v'.unit.getD 0 = 0 ∨ v'.unit.getD 0 = 3) ∧
          v.displayW.getD w * v'.displayH.getD h = v'.displayW.getD w * v.displayH.getD h ∧
            (0 < v.displayW.getD w → 0 < v.displayH.getD h → 0 < v'.displayW.getD w ∧ 0 < v'.displayH.getD h)
      else v'.unit = v.unit ∧ v'.displayW.getD w = v.displayW.getD w ∧ v'.displayH.getD h = v.displayH.getD h := by
    intro e1 e2 e3
    rw [e1, e2, e3]
    split
    · rename_i hu; exact ⟨hu, rfl, fun a b => ⟨a, b⟩⟩
    · exact ⟨rfl, rfl, rfl⟩
  rcases cleanDisplay_cases p.pw p.ph ⟨p.w0, p.w1⟩ ⟨p.h0, p.h1⟩ e with ⟨_, _, rfl⟩ | ⟨_, ⟨_, _, e⟩ | ⟨_, _, _, _, e⟩ | ⟨hl, hu, v2, e2, h2⟩⟩
  · exact unch rfl rfl rfl
  · have := cleanCrop_same e; exact unch this.2.2.1 this.2.2.2.1 this.2.2.2.2.1
  · have := cleanCrop_same e; exact unch this.2.2.1 this.2.2.2.1 this.2.2.2.2.1
  · have hunit : v.unit.getD 0 = 0 ∨ v.unit.getD 0 = 3 := by
      rcases hu with hu | hu | hu <;> rw [hu]
      · exact .inl rfl
      · exact .inl rfl
      · exact .inr rfl
    rw [if_pos hunit]
    have hd : v'.displayW = v2.displayW ∧ v'.displayH = v2.displayH ∧ (v'.unit.getD 0 = v2.unit.getD 0) := by
      rcases h2 with ⟨_, rfl⟩ | ⟨_, e⟩
      · exact ⟨rfl, rfl, rfl⟩
      · have := cleanCrop_same e
        exact ⟨this.2.2.1, this.2.2.2.1, by rw [this.2.2.2.2.1]; rfl⟩
    rw [hd.1, hd.2.1, hd.2.2]
    have pu : (pixelUnit v).getD 0 = 0 := by
      unfold pixelUnit
      rcases hu with hu | hu | hu <;> rw [hu] <;> rfl
    rcases cleanPixels_ok e2 with ⟨rfl, hx⟩ | ⟨dw, dh, q, hq, hx, rfl⟩
    · refine ⟨.inl pu, ?_⟩
      rcases hx with ⟨h1, h2⟩ | ⟨h1, h2⟩ <;> simp only at h1 h2 <;> rw [h1, h2] <;>
        exact ⟨rfl, fun a b => ⟨a, b⟩⟩
    · have hdw : v.displayW.getD w = dw ∧ v.displayH.getD h = dh := by
        rcases hx with ⟨h1, h2, _⟩ | ⟨h1, h2, h3, _⟩ | ⟨h1, h2, h3, _⟩ <;> simp only at h1 h2 <;> rw [h1, h2]
        · exact ⟨rfl, rfl⟩
        · exact ⟨h3.symm, rfl⟩
        · exact ⟨rfl, h3.symm⟩
      have u := unshrink_ok hq
      refine ⟨?_, ?_, ?_⟩
      · cases hb : q.2.2 with
        | true => exact .inr rfl
        | false => exact .inl pu
      · simp only [getD_if]
        rw [hdw.1, hdw.2, u.1, Int.mul_comm]
      · simp only [getD_if]
        rw [hdw.1, hdw.2]
        exact fun a b => size_pos p.w0 p.h0 a b hq

/-- A picture of `w` by `h` pixels shown with the size `dw` by `dh`. -/
def sized (w h dw dh : Int) : Video := { pixelW := some w, pixelH := some h, displayW := some dw, displayH := some dh }

theorem sized_picture {w h dw dh : Int} (h1 : 0 < w ∧ w < 2 ^ 31) (h2 : 0 < h ∧ h < 2 ^ 31) (h3 : 0 ≤ dw) (h4 : 0 ≤ dh) :
    Picture (sized w h dw dh) w h :=
  ⟨rfl, rfl, h1.1, h1.2, h2.1, h2.2, fun _ e => by cases e; exact h3, fun _ e => by cases e; exact h4⟩

/-- DVD pictures marked 4:3 in pixels get a size in pixels that is 4:3. -/
example : cleanDisplay (sized 720 576 4 3) = .ok (some { sized 720 576 768 576 with displayH := none, unit := some 0 }) := by decide +kernel
/-- 16:9 of 853 by 480 pixels is not a number of pixels: the unit becomes an aspect ratio. -/
example : cleanDisplay (sized 720 481 16 9) = .ok (some { sized 720 481 16 9 with unit := some 3 }) := by decide +kernel
example : SameLook (sized 720 576 4 3) { sized 720 576 768 576 with displayH := none, unit := some 0 } :=
  C139_aspect_ratio_partial _ _ 720 576 (sized_picture (by decide) (by decide) (by decide) (by decide)) (by decide +kernel)
    (.inl ⟨rfl, rfl⟩) (.inl ⟨rfl, rfl⟩)

/-- A picture with black bars of 140 lines cropped, shown as 1920 by 1080: mkclean drops the size, and it is shown as 1920 by 800. -/
theorem C139_aspect_ratio_counterexample :
    ∃ v v' : Video, Picture v 1920 1080 ∧ cleanDisplay v = .ok (some v') ∧ v.shownW = 1920 ∧ v.shownH = 1080 ∧
      v'.shownW = 1920 ∧ v'.shownH = 800 ∧ ¬ SameLook v v' := by
  refine ⟨{ sized 1920 1080 1920 1080 with cropT := some 140, cropB := some 140 },
    { sized 1920 1080 1920 1080 with displayW := none, displayH := none, cropT := some 140, cropB := some 140, unit := some 0 },
    ⟨rfl, rfl, by decide, by decide, by decide, by decide, fun _ e => by cases e; decide, fun _ e => by cases e; decide⟩,
    by decide +kernel, by decide +kernel, by decide +kernel, by decide +kernel, by decide +kernel, ?_⟩
  rintro ⟨_, _, h⟩
  revert h
  decide +kernel

/-! ### C140: the crop -/

theorem ite_iff {α : Type} {p q : Prop} [Decidable p] [Decidable q] {a b c : α} (h : p ↔ q) (e : b = c) :
    (if p then a else b) = if q then a else c := by
  by_cases hp : p
  · rw [if_pos hp, if_pos (h.mp hp)]
  · rw [if_neg hp, if_neg (fun hq => hp (h.mpr hq)), e]

/-- When the crop of a picture is dropped. -/
def CropDropped (v v' : Video) (w h : Int) : Prop :=
  (v.displayW ≠ none ∨ v.displayH ≠ none) ∧
  ((v.unit = some 3 ∧ ¬ ((v.displayW = none ∨ v.displayW = some w) ∧ (v.displayH = none ∨ v.displayH = some h))) ∨
   (v'.unit ≠ some 3 ∧ (v.cropL.getD 0 + v.cropR.getD 0 ≥ v'.displayW.getD w ∨ v.cropT.getD 0 + v.cropB.getD 0 ≥ v'.displayH.getD h)))

open Classical in
theorem C140_crop_partial (v v' : Video) (w h : Int) (p : Picture v w h) (e : cleanDisplay v = .ok (some v'))
    (hc : 0 ≤ v.cropT.getD 0 ∧ 0 ≤ v.cropB.getD 0) :
    v'.crop = if CropDropped v v' w h then (0, 0, 0, 0) else v.crop := by
  have cc : ∀ {u u' : Video} {w h : Int}, cleanCrop u w h = .ok u' →
      u'.crop = if u.cropL.getD 0 + u.cropR.getD 0 ≥ w ∨ u.cropT.getD 0 + u.cropB.getD 0 ≥ h then (0, 0, 0, 0) else u.crop := by
    intro u u' w h e
    rcases cleanCrop_ok e with ⟨rfl, hx⟩ | ⟨rfl, h1, h2⟩
    · rw [if_pos hx.symm]; rfl
    · rw [if_neg (by omega)]
      simp only [Video.crop, Video.keepCrop, keep_getD]
  rcases cleanDisplay_cases p.pw p.ph ⟨p.w0, p.w1⟩ ⟨p.h0, p.h1⟩ e with ⟨h1, h2, rfl⟩ | ⟨hd, ⟨h1, h2, e⟩ | ⟨k, h1, h2, h3, e⟩ | ⟨hl, hu, v2, e2, h2⟩⟩
  · rw [if_neg (fun hx => hx.1.elim (absurd h1) (absurd h2))]
  · have hd' : v.displayW ≠ none ∨ v.displayH ≠ none := by
      by_cases ha : v.displayW = none
      · exact .inr fun hb => hd ⟨ha, hb⟩
      · exact .inl ha
    rw [if_pos ⟨hd', .inl ⟨h1, h2⟩⟩, cc e, if_pos (.inr (by omega))]
  · have hd' : v.displayW ≠ none ∨ v.displayH ≠ none := by
      by_cases ha : v.displayW = none
      · exact .inr fun hb => hd ⟨ha, hb⟩
      · exact .inl ha
    have s := cleanCrop_same e
    rw [cc e]
    have hu : v'.unit ≠ some 3 := by rw [s.2.2.2.2.1, h1]; intro hx; cases hx; exact h3 rfl
    have hu' : v.unit ≠ some 3 := by rw [h1]; intro hx; cases hx; exact h3 rfl
    refine ite_iff ?_ rfl
    unfold CropDropped
    rw [s.2.2.1, s.2.2.2.1]
    exact ⟨fun hx => ⟨hd', .inr ⟨hu, hx⟩⟩, fun hx => hx.2.elim (fun hy => absurd hy.1 hu') (fun hy => hy.2)⟩
  · have hd' : v.displayW ≠ none ∨ v.displayH ≠ none := by
      by_cases ha : v.displayW = none
      · exact .inr fun hb => hd ⟨ha, hb⟩
      · exact .inl ha
    have hv2 : v2.crop = v.crop ∧ v2.cropL = v.cropL ∧ v2.cropR = v.cropR ∧ v2.cropT = v.cropT ∧ v2.cropB = v.cropB := by
      rcases cleanPixels_ok e2 with ⟨rfl, _⟩ | ⟨_, _, _, _, _, rfl⟩ <;> exact ⟨rfl, rfl, rfl, rfl, rfl⟩
    rcases h2 with ⟨h3, rfl⟩ | ⟨h3, e⟩
    · rw [if_neg (fun hx => hx.2.elim (fun hy => hy.2 (hl hy.1)) (fun hy => hy.1 h3))]
      exact hv2.1
    · have s := cleanCrop_same e
      have e' := cc e
      simp only at e' s
      rw [hv2.2.1, hv2.2.2.1, hv2.2.2.2.1, hv2.2.2.2.2] at e'
      rw [e']
      have hu' : v'.unit ≠ some 3 := by
        rw [s.2.2.2.2.1]
        intro hx
        cases hy : v2.unit with
        | none => rw [hy] at hx; cases hx
        | some k => rw [hy] at hx; simp only [Option.getD_some] at hx; exact h3 (hy.trans hx)
      refine ite_iff ?_ rfl
      unfold CropDropped
      rw [s.2.2.1, s.2.2.2.1]
      exact ⟨fun hx => ⟨hd', .inr ⟨hu', hx⟩⟩, fun hx => hx.2.elim (fun hy => absurd (hl hy.1) hy.2) (fun hy => hy.2)⟩

/-- A crop that leaves 800 of 1080 lines stays. -/
example : (match cleanDisplay { sized 1920 1080 1920 800 with cropT := some 140, cropB := some 140 } with
    | .ok (some v) => v.crop
    | _ => (0, 0, 0, 0)) = (0, 0, 140, 140) := by decide +kernel

/-- The same crop is dropped when the display size is given as the aspect ratio 12:5. -/
theorem C140_crop_counterexample :
    ∃ v v' : Video, Picture v 1920 1080 ∧ v.crop = (0, 0, 140, 140) ∧ cleanDisplay v = .ok (some v') ∧ v'.crop = (0, 0, 0, 0) :=
  ⟨{ sized 1920 1080 12 5 with cropT := some 140, cropB := some 140, unit := some 3 }, { sized 1920 1080 12 5 with unit := some 3 },
    ⟨rfl, rfl, by decide, by decide, by decide, by decide, fun _ e => by cases e; decide, fun _ e => by cases e; decide⟩, rfl, by decide +kernel, rfl⟩

/-- A crop of 400 of 1080 lines is dropped when the picture is shown with 360 lines. -/
theorem C140_small_display_counterexample :
    ∃ v v' : Video, Picture v 1920 1080 ∧ v.crop = (0, 0, 200, 200) ∧ cleanDisplay v = .ok (some v') ∧ v'.crop = (0, 0, 0, 0) :=
  ⟨{ sized 1920 1080 640 360 with cropT := some 200, cropB := some 200 }, { sized 1920 1080 640 360 with unit := some 0 },
    ⟨rfl, rfl, by decide, by decide, by decide, by decide, fun _ e => by cases e; decide, fun _ e => by cases e; decide⟩, rfl, by decide +kernel, rfl⟩

/-! ### C141: the size in pixels -/

/-- When a display size in pixels stays as it is. -/
def SizeKept (w h dw dh : Int) : Prop :=
  ¬ (dw < w ∧ dh < h) ∨
  (if Int.gcd dw dh = 1 then 2 * dw ≥ w ∧ 2 * dh ≥ h
   else ¬ (8 * dw ≤ w ∧ 8 * dh ≤ h) ∧ ¬ (2 * dw ≥ w ∧ 2 * dh ≥ h))

theorem serious_zero {w h dw dh : Int} (hdw : 0 < dw) (g : Int) : serious g w h dw dh = 0 ↔
    (if g = 1 then 2 * dw ≥ w ∧ 2 * dh ≥ h ∧ ¬ (8 * dw ≤ w ∧ 8 * dh ≤ h) else ¬ (8 * dw ≤ w ∧ 8 * dh ≤ h) ∧ ¬ (2 * dw ≥ w ∧ 2 * dh ≥ h)) := by
  unfold serious
  by_cases hg : g = 1
  · simp only [hg, if_true]
    split
    · constructor <;> intro hx <;> omega
    · split <;> omega
  · simp only [hg, if_false]
    split
    · constructor <;> intro hx <;> omega
    · split <;> omega

theorem unshrink_serious {w h dw dh : Int} {p : Int × Int × Bool} (hdw : 0 < dw) (hdh : 0 < dh) (hs : dw < w ∧ dh < h)
    (e : unshrink w h dw dh = .ok p) :
    (serious (Int.gcd dw dh) w h dw dh = 0 → p = (dw, dh, false)) ∧
    (serious (Int.gcd dw dh) w h dw dh ≠ 0 → p.2.2 = true ∨ p.1 = w ∨ p.2.1 = h) := by
  unfold unshrink at e
  rw [if_pos ⟨hs.2, hs.1⟩, gcd_pos (Int.le_of_lt hdw) hdh] at e
  simp only [Out.bind] at e
  obtain ⟨_, e⟩ := ck_ok e
  obtain ⟨_, e⟩ := ck_ok e
  by_cases hz : serious (Int.gcd dw dh) w h dw dh = 0
  · rw [if_neg (Classical.not_not.mpr hz)] at e
    cases e
    exact ⟨fun _ => rfl, fun hx => absurd hz hx⟩
  · rw [if_pos hz] at e
    refine ⟨fun hx => absurd hx hz, fun _ => ?_⟩
    change Out.bind _ _ = _ at e
    obtain ⟨q, hq, e⟩ := bind_ok e
    obtain ⟨_, e⟩ := ck_ok e
    obtain ⟨_, e⟩ := ck_ok e
    by_cases hne : q.1 * dh ≠ q.2 * dw
    · rw [if_pos hne] at e; cases e; exact .inl rfl
    · rw [if_neg hne] at e
      cases e
      by_cases hd : dw > dh
      · rw [if_pos hd] at hq
        cases hsc : scale h dw dh <;> rw [hsc] at hq <;> cases hq
        exact .inr (.inr rfl)
      · rw [if_neg hd] at hq
        cases hsc : scale w dh dw <;> rw [hsc] at hq <;> cases hq
        exact .inr (.inl rfl)

theorem C141_display_size_partial (v v' : Video) (w h dw dh : Int) (p : Picture v w h) (e : cleanDisplay v = .ok (some v'))
    (hu : v.unit = none ∨ v.unit = some 0) (hdw : v.displayW = some dw) (hdh : v.displayH = some dh) (h1 : 0 < dw) (h2 : 0 < dh) :
    (v'.unit = some 0 ∧ v'.displayW.getD w = dw ∧ v'.displayH.getD h = dh) ↔ SizeKept w h dw dh := by
  have hu3 : v.unit ≠ some 3 := by rcases hu with hu | hu <;> rw [hu] <;> decide
  rcases cleanDisplay_cases p.pw p.ph ⟨p.w0, p.w1⟩ ⟨p.h0, p.h1⟩ e with ⟨hx, _⟩ | ⟨hd, ⟨hx, _⟩ | ⟨k, hx, h3, _⟩ | ⟨hl, _, v2, e2, hr⟩⟩
  · rw [hdw] at hx; cases hx
  · exact absurd hx hu3
  · rcases hu with hu | hu <;> rw [hu] at hx <;> cases hx; exact absurd rfl h3
  · rcases cleanPixels_ok e2 with ⟨_, hx⟩ | ⟨a, b, q, hq, hx, rfl⟩
    · simp only [hdw, hdh] at hx
      rcases hx with ⟨hx, _⟩ | ⟨_, hx⟩ <;> cases hx
    · have hab : a = dw ∧ b = dh := by
        simp only [hdw, hdh] at hx
        rcases hx with ⟨hx, hy, _⟩ | ⟨hx, _⟩ | ⟨_, hx, _⟩
        · cases hx; cases hy; exact ⟨rfl, rfl⟩
        · cases hx
        · cases hx
      obtain ⟨rfl, rfl⟩ := hab
      have pu : pixelUnit v = v.unit := by unfold pixelUnit; rw [if_neg hu3]
      have hv' : v'.displayW.getD w = q.1 ∧ v'.displayH.getD h = q.2.1 ∧ (v'.unit = some 0 ↔ q.2.2 = false) := by
        rcases hr with ⟨h3, rfl⟩ | ⟨h3, e⟩
        · simp only [getD_if, true_and]
          simp only [pu] at h3 ⊢
          cases hb : q.2.2 with
          | true => simp
          | false => rw [hb] at h3; exact absurd h3 hu3
        · have s := cleanCrop_same e
          simp only at s
          rw [s.2.2.1, s.2.2.2.1, s.2.2.2.2.1, getD_if, getD_if]
          refine ⟨rfl, rfl, ?_⟩
          simp only [pu] at h3 ⊢
          cases hb : q.2.2 with
          | true => rw [hb] at h3; exact absurd rfl h3
          | false => rcases hu with hu | hu <;> rw [hu] <;> simp
      rw [hv'.1, hv'.2.1, hv'.2.2]
      unfold SizeKept
      by_cases hs : a < w ∧ b < h
      · have us := unshrink_serious h1 h2 hs hq
        have sz := serious_zero (w := w) (h := h) (dh := b) h1 (Int.gcd a b)
        by_cases hz : serious (Int.gcd a b) w h a b = 0
        · have := us.1 hz
          subst this
          have hz' := sz.mp hz
          refine ⟨fun _ => .inr ?_, fun _ => ⟨rfl, rfl, rfl⟩⟩
          by_cases hg : Int.gcd a b = 1
          · rw [if_pos (by omega)] at hz'; rw [if_pos hg]; exact ⟨hz'.1, hz'.2.1⟩
          · rw [if_neg (by omega)] at hz'; rw [if_neg hg]; exact hz'
        · have hn := us.2 hz
          constructor
          · rintro ⟨k1, k2, k3⟩
            rcases hn with hn | hn | hn
            · rw [k1] at hn; cases hn
            · omega
            · omega
          · rintro (hx | hx)
            · exact absurd hs hx
            · exfalso
              apply hz
              rw [sz]
              by_cases hg : Int.gcd a b = 1
              · rw [if_pos hg] at hx; rw [if_pos (by omega)]; have := p.w0; omega
              · rw [if_neg hg] at hx; rw [if_neg (by omega)]; exact hx
      · have hq' : q = (a, b, false) := by
          unfold unshrink at hq
          rw [if_neg (fun hx => hs ⟨hx.2, hx.1⟩)] at hq
          cases hq; rfl
        subst hq'
        exact ⟨fun _ => .inl hs, fun _ => ⟨rfl, rfl, rfl⟩⟩

/-- 640 by 360 for 1920 by 1080 is kept, 16 by 9 is not. -/
example : SizeKept 1920 1080 640 360 ∧ ¬ SizeKept 1920 1080 16 9 := by unfold SizeKept; decide +kernel
example : cleanDisplay (sized 1920 1080 640 360) = .ok (some { sized 1920 1080 640 360 with unit := some 0 }) := by decide +kernel

/-- 1280 by 720 for 1920 by 1080 is more than half of the size and still dropped. -/
theorem C141_display_size_counterexample :
    ∃ v' : Video, cleanDisplay (sized 1920 1080 1280 720) = .ok (some v') ∧ v'.shownW = 1920 ∧ v'.shownH = 1080 ∧ v'.unit = some 0 :=
  ⟨{ sized 1920 1080 0 0 with displayW := none, displayH := none, unit := some 0 }, by decide +kernel, by decide +kernel, by decide +kernel, rfl⟩

/-! ### C142: cleaning twice -/

/-- No crop elements. -/
def Video.uncropped (v : Video) : Prop := v.cropL = none ∧ v.cropR = none ∧ v.cropT = none ∧ v.cropB = none

theorem cleanCrop_uncropped {v : Video} (hc : v.uncropped) (w h : Int) : cleanCrop v w h = .ok v := by
  obtain ⟨⟩ := v
  obtain ⟨h1, h2, h3, h4⟩ := hc
  simp only at h1 h2 h3 h4
  subst h1 h2 h3 h4
  unfold cleanCrop
  simp only [Option.getD_none]
  rw [ck_in _ (by decide) (by decide), ck_in _ (by decide) (by decide)]
  by_cases h1 : (0 : Int) + 0 ≥ h
  · rw [if_pos h1]
  · rw [if_neg h1]
    by_cases h2 : (0 : Int) + 0 ≥ w
    · rw [if_pos h2]
    · rw [if_neg h2]; rfl

/-- A picture in pixels on which `cleanPixels` does nothing. -/
theorem cleanDisplay_fix {v : Video} {w h : Int} (hpw : v.pixelW = some w) (hph : v.pixelH = some h)
    (hw : 0 < w ∧ w < 2 ^ 31) (hh : 0 < h ∧ h < 2 ^ 31) (hc : v.uncropped) (hu : v.unit = some 0)
    (e : cleanPixels w h v = .ok (some v)) : cleanDisplay v = .ok (some v) := by
  unfold cleanDisplay
  rw [hpw, hph]
  simp only [toInt_of (Int.le_of_lt hw.1) hw.2, toInt_of (Int.le_of_lt hh.1) hh.2]
  rw [if_neg (by omega)]
  by_cases hd : v.displayW = none ∧ v.displayH = none
  · rw [if_pos hd]
  · rw [if_neg hd]
    unfold cleanRatio
    rw [if_neg (by rw [hu]; decide)]
    simp only [Out.bind]
    rw [if_pos (.inr hu), e]
    simp only [self_unit hu]
    rw [if_pos (by rw [hu]; decide), cleanCrop_uncropped hc]

theorem cleanPixels_fix {v : Video} {w h dw dh : Int} (hu : v.unit = some 0)
    (hdw : v.displayW = if dw = w then none else some dw) (hdh : v.displayH = if dh = h then none else some dh)
    (hn : ¬ (dw = w ∧ dh = h)) (h0 : dw ≠ 0) (h1 : dw = w ∨ dh ≠ 0) (e : unshrink w h dw dh = .ok (dw, dh, false)) :
    cleanPixels w h v = .ok (some v) := by
  have fin : ({ v with
      displayW := if dw = w then none else some dw
      displayH := if dh = h then none else some dh
      unit := if false = true then some 3 else v.unit } : Video) = v := by
    rw [← hdw, ← hdh]; rfl
  unfold cleanPixels displaySizes
  by_cases ha : dw = w
  · rw [if_pos ha] at hdw
    by_cases hb : dh = h
    · exact absurd ⟨ha, hb⟩ hn
    · rw [if_neg hb] at hdh
      rw [hdw, hdh]
      simp only [Out.bind, if_neg hb]
      rw [show unshrink w h w dh = .ok (w, dh, false) from ha ▸ e]
      rw [ha] at fin
      exact congrArg (fun x => Out.ok (some x)) fin
  · rw [if_neg ha] at hdw
    by_cases hb : dh = h
    · rw [if_pos hb] at hdh
      rw [hdw, hdh]
      simp only [Out.bind, if_neg ha, if_neg h0]
      rw [show unshrink w h dw h = .ok (dw, h, false) from hb ▸ e]
      rw [hb] at fin
      exact congrArg (fun x => Out.ok (some x)) fin
    · rw [if_neg hb] at hdh
      rw [hdw, hdh]
      simp only [Out.bind, if_neg h0, if_neg (h1.resolve_left ha)]
      rw [e]
      simp only
      rw [fin]

theorem C142_clean_twice_partial (v v' : Video) (w h : Int) (p : Picture v w h) (hc : v.uncropped)
    (e : cleanDisplay v = .ok (some v')) : cleanDisplay v' = .ok (some v') := by
  have same := display_same p e
  rcases cleanDisplay_cases p.pw p.ph ⟨p.w0, p.w1⟩ ⟨p.h0, p.h1⟩ e with ⟨h1, h2, rfl⟩ | ⟨hd, ⟨h1, h2, e'⟩ | ⟨k, h1, h2, h3, e'⟩ | ⟨hl, hu, v2, e2, h2⟩⟩
  · exact e
  · rw [cleanCrop_uncropped hc] at e'; cases e'; exact e
  · rw [cleanCrop_uncropped hc] at e'; cases e'; exact e
  · have hc2 : v2.uncropped := by
      rcases cleanPixels_ok e2 with ⟨rfl, _⟩ | ⟨_, _, _, _, _, rfl⟩ <;> exact hc
    have pu : (pixelUnit v).getD 0 = 0 := by
      unfold pixelUnit
      rcases hu with hu | hu | hu <;> rw [hu] <;> rfl
    rcases h2 with ⟨h3, rfl⟩ | ⟨h3, e'⟩
    · rcases cleanPixels_ok e2 with ⟨rfl, hx⟩ | ⟨dw, dh, q, hq, hx, hv⟩
      · simp only at h3
        rw [h3] at pu; cases pu
      · have hb : q.2.2 = true := by
          cases hb : q.2.2 with
          | true => rfl
          | false => rw [hv, hb] at h3; simp only at h3; rw [show (if false = true then some 3 else pixelUnit v) = pixelUnit v from rfl] at h3; rw [h3] at pu; cases pu
        have u := (unshrink_ok hq).2.1 hb
        have hdw : v'.displayW = some dw := by
          rw [hv, u.1]
          simp only
          rw [if_neg (by omega)]
        have hdh : v'.displayH = some dh := by
          rw [hv, u.1]
          simp only
          rw [if_neg (by omega)]
        unfold cleanDisplay
        rw [same.1, same.2.1, p.pw, p.ph]
        simp only [toInt_of (Int.le_of_lt p.w0) p.w1, toInt_of (Int.le_of_lt p.h0) p.h1]
        have := p.w0
        have := p.h0
        rw [if_neg (by omega), if_neg (by rw [hdw]; intro hx; cases hx.1)]
        unfold cleanRatio
        rw [if_pos h3, if_neg (by
          rw [hdw]
          rintro ⟨hx | hx, _⟩
          · cases hx
          · cases hx; omega), cleanCrop_uncropped hc2]
        simp only [Out.bind]
        rw [if_neg (by rw [h3]; decide)]
        simp only [self_unit h3]
        rw [if_neg (by rw [h3]; decide)]
    · rw [cleanCrop_uncropped (by exact hc2)] at e'
      cases e'
      have hb0 : v2.unit.getD 0 = 0 := by
        rcases cleanPixels_ok e2 with ⟨rfl, _⟩ | ⟨_, _, q, _, _, rfl⟩
        · exact pu
        · simp only at h3 ⊢
          cases hb : q.2.2 with
          | true => rw [hb] at h3; exact absurd rfl h3
          | false => exact pu
      rw [hb0]
      rcases cleanPixels_ok e2 with ⟨hv, hx⟩ | ⟨dw, dh, q, hq, hx, hv⟩
      · unfold cleanDisplay
        rw [hv]
        simp only [p.pw, p.ph]
        simp only [toInt_of (Int.le_of_lt p.w0) p.w1, toInt_of (Int.le_of_lt p.h0) p.h1]
        have := p.w0
        have := p.h0
        rw [if_neg (by omega), if_pos (by trivial)]
      · have hb : q.2.2 = false := by
          cases hb : q.2.2 with
          | false => rfl
          | true => rw [hv, hb] at h3; exact absurd rfl h3
        have hq1 : q = (q.1, q.2.1, false) := by rw [← hb]
        have w0 := p.w0
        have h0 := p.h0
        by_cases hn : q.1 = w ∧ q.2.1 = h
        · unfold cleanDisplay
          rw [hv]
          simp only [p.pw, p.ph]
          simp only [toInt_of (Int.le_of_lt p.w0) p.w1, toInt_of (Int.le_of_lt p.h0) p.h1]
          rw [if_neg (by omega), if_pos (by rw [if_pos hn.1, if_pos hn.2]; trivial)]
        · have hdw0 : dw ≠ 0 := by
            rcases hx with ⟨_, _, hx, _⟩ | ⟨_, _, hx, _⟩ | ⟨_, _, _, _, hx⟩ <;> omega
          have hun : unshrink w h q.1 q.2.1 = .ok (q.1, q.2.1, false) ∧ q.1 ≠ 0 ∧ (q.1 = w ∨ q.2.1 ≠ 0) := by
            rcases (unshrink_ok hq).2.2 hb with hqe | ⟨hs1, hs2, hx2⟩
            · rw [hqe]
              refine ⟨by rw [hqe] at hq; exact hq, hdw0, ?_⟩
              rcases hx with ⟨_, _, _, hx⟩ | ⟨_, _, hx, _⟩ | ⟨_, _, hx, _⟩
              · exact .inr hx
              · exact .inl hx
              · exact .inr (by simp only; omega)
            · have hpos : 0 < dw ∧ 0 < dh := by
                rcases hx with ⟨hx, hy, _, hz⟩ | ⟨_, _, hx, _⟩ | ⟨_, _, hx, _⟩
                · have a := p.dw _ hx
                  have b := p.dh _ hy
                  omega
                · omega
                · omega
              have sp := size_pos w0 h0 hpos.1 hpos.2 hq
              refine ⟨?_, by omega, .inr (by omega)⟩
              unfold unshrink
              rw [if_neg]
              rcases hx2 with hx2 | hx2 | hx2 | hx2 <;> omega
          refine cleanDisplay_fix (w := w) (h := h) ?_ ?_ ⟨w0, p.w1⟩ ⟨h0, p.h1⟩ hc2 rfl (cleanPixels_fix (dw := q.1) (dh := q.2.1) rfl ?_ ?_ hn hun.2.1 hun.2.2 hun.1)
          · rw [hv]; exact p.pw
          · rw [hv]; exact p.ph
          · rw [hv]
          · rw [hv]

example : (sized 720 481 16 9).uncropped ∧ Picture (sized 720 481 16 9) 720 481 :=
  ⟨⟨rfl, rfl, rfl, rfl⟩, sized_picture (by decide) (by decide) (by decide) (by decide)⟩

/-- Cleaning once keeps the crop and turns the unit into an aspect ratio; cleaning again drops the crop. -/
theorem C142_clean_twice_counterexample :
    ∃ v v' v'' : Video, Picture v 720 481 ∧ v.crop = (0, 0, 2, 0) ∧ cleanDisplay v = .ok (some v') ∧ v'.crop = (0, 0, 2, 0) ∧
      cleanDisplay v' = .ok (some v'') ∧ v''.crop = (0, 0, 0, 0) :=
  ⟨{ sized 720 481 16 9 with cropT := some 2 }, { sized 720 481 16 9 with cropT := some 2, unit := some 3 }, { sized 720 481 16 9 with unit := some 3 },
    ⟨rfl, rfl, by decide, by decide, by decide, by decide, fun _ e => by cases e; decide, fun _ e => by cases e; decide⟩, rfl, by decide +kernel, rfl,
    by decide +kernel, rfl⟩

end Verif.Mkclean.Tracks
