import Verif.Mkclean.Setup
import Verif.Props.Scanf
import Verif.Props.Master
/-! What mkclean makes of its command line (C177), of the TimestampScale (C178), and of EBML heads (C179). -/
set_option linter.unusedSimpArgs false
namespace Verif.Setup
open Verif Verif.Mkv

/-! ### The command line -/

/-- The options of the usage text (1657-1680), with the digits of the numbers. -/
inductive Opt where
  | keepCues
  | remux
  | live
  | noSafety
  | optimize
  | optimizeNv
  | noOptimize
  | regression
  | quiet
  | doctype (k : Fin 7)
  | timecodescale (text : Str)
  | alt3d (digits : List Nat)
  | zlib
deriving DecidableEq

/-- `a` is `b` in upper or lower case. -/
def Word (a : Str) (b : String) : Prop := Url.ieq a (lit b) = true

/-- How an option is written. -/
def Opt.Written : Opt → List Str → Prop
  | .keepCues, ws => ∃ a, ws = [a] ∧ Word a "--keep-cues"
  | .remux, ws => ∃ a, ws = [a] ∧ Word a "--remux"
  | .live, ws => ∃ a, ws = [a] ∧ Word a "--live"
  | .noSafety, ws => ∃ a, ws = [a] ∧ Word a "--unsafe"
  | .optimize, ws => ∃ a, ws = [a] ∧ Word a "--optimize"
  | .optimizeNv, ws => ∃ a, ws = [a] ∧ Word a "--optimize_nv"
  | .noOptimize, ws => ∃ a, ws = [a] ∧ Word a "--no-optimize"
  | .regression, ws => ∃ a, ws = [a] ∧ Word a "--regression"
  | .quiet, ws => ∃ a, ws = [a] ∧ Word a "--quiet"
  | .doctype k, ws => ∃ a, ws = [a, [49 + k.val]] ∧ Word a "--doctype"
  | .timecodescale t, ws => ∃ a, ws = [a, t] ∧ Word a "--timecodescale"
  | .alt3d ds, ws => ∃ a, ws = [a, Scanf.decimal ds] ∧ Word a "--alt-3d" ∧ (∀ d ∈ ds, d < 10) ∧ Scanf.value 10 ds < 2 ^ 31
  | .zlib, ws => ∃ a, ws = [a, lit "0"] ∧ Word a "--compalgo"

/-- The options of a command line, written one after the other. -/
def Written : List Opt → List Str → Prop
  | [], ws => ws = []
  | o :: os, ws => ∃ a b, ws = a ++ b ∧ o.Written a ∧ Written os b

/-- A file name that does not look like an option. -/
def Plain (a : Str) : Prop := a.take 2 ≠ lit "--"

/-- The profiles the usage text lists, in its order. -/
def profileOf (k : Fin 7) : Nat := [pV1, pV2, pV3, pWebm, pDivx, pV4, pV5][k]

def doctypeOf : Opt → Option Nat
  | .doctype k => some (profileOf k)
  | _ => none
def scaleOf : Opt → Option Str
  | .timecodescale t => some t
  | _ => none
def trackOf : Opt → Option Nat
  | .alt3d ds => some (Scanf.value 10 ds)
  | _ => none
def videoOf : Opt → Option Bool
  | .optimize => some true
  | .optimizeNv => some false
  | _ => none

/-- What the options ask for: of several values, the last. -/
structure Asks (os : List Opt) (s : Settings) : Prop where
  keepCues : s.keepCues = decide (.keepCues ∈ os)
  remux : s.remux = decide (.remux ∈ os)
  live : s.live = decide (.live ∈ os)
  noSafety : s.noSafety = decide (.noSafety ∈ os)
  optimize : s.optimize = decide (.optimize ∈ os ∨ .optimizeNv ∈ os)
  optimizeVideo : s.optimizeVideo = (os.filterMap videoOf).getLast?.getD true
  unOptimize : s.unOptimize = decide (.noOptimize ∈ os)
  regression : s.regression = decide (.regression ∈ os)
  quiet : s.quiet = decide (.quiet ∈ os)
  zlib : s.zlib = decide (.zlib ∈ os)
  profile : s.profile = (os.filterMap doctypeOf).getLast?.getD 0
  scale : Out.ok s.scale = ((os.filterMap scaleOf).getLast?.map Scanf.stringToInt64).getD (.ok 0)
  alt3d : s.alt3d = os.filterMap trackOf
  noText : s.showVersion = false

/-! ### Proofs -/

theorem upper_dash (c : Nat) (h : Url.upper c = 0x2D) : c = 0x2D := by
  unfold Url.upper at h
  split at h <;> omega

/-- A word is not an option unless it begins with `--`. -/
theorem plain_same (a : Str) (h : Plain a) (r : List Char) : Url.ieq a (Url.lit (String.ofList ('-' :: '-' :: r))) = false := by
  rw [Bool.eq_false_iff]
  intro he
  apply h
  unfold Url.ieq Url.lit at he
  rw [String.toList_ofList] at he
  match a, he with
  | [], he => simp at he
  | [x], he => simp at he
  | x :: y :: a, he =>
    simp only [List.map_cons, beq_iff_eq, List.cons.injEq] at he
    have h1 := upper_dash x (by rw [he.1]; rfl)
    have h2 := upper_dash y (by rw [he.2.1]; rfl)
    rw [h1, h2]
    rfl

theorem plain_flag (a : Str) (h : Plain a) (s : Settings) : flag a s = none := by
  unfold flag
  have key := plain_same a h
  rw [if_neg (by rw [show same a "--keep-cues" = false from key "keep-cues".toList]; simp),
    if_neg (by rw [show same a "--remux" = false from key "remux".toList]; simp),
    if_neg (by rw [show same a "--live" = false from key "live".toList]; simp),
    if_neg (by rw [show same a "--unsafe" = false from key "unsafe".toList]; simp),
    if_neg (by rw [show same a "--optimize" = false from key "optimize".toList]; simp),
    if_neg (by rw [show same a "--optimize_nv" = false from key "optimize_nv".toList]; simp),
    if_neg (by rw [show same a "--regression" = false from key "regression".toList]; simp),
    if_neg (by rw [show same a "--no-optimize" = false from key "no-optimize".toList]; simp),
    if_neg (by rw [show same a "--quiet" = false from key "quiet".toList]; simp),
    if_neg (by rw [show same a "--version" = false from key "version".toList]; simp),
    if_neg (by rw [show same a "--help" = false from key "help".toList]; simp)]

theorem word_same {a : Str} {b : String} (h : Word a b) (c : String) : same a c = Url.ieq (lit b) (lit c) := by
  unfold Word Url.ieq at h
  unfold same Url.ieq
  rw [beq_iff_eq] at h
  rw [h]

/-- The new settings, without the arguments left. -/
def apply (s : Settings) : Opt → Settings
  | .keepCues => { s with keepCues := true }
  | .remux => { s with remux := true }
  | .live => { s with live := true }
  | .noSafety => { s with noSafety := true }
  | .optimize => { s with optimize := true, optimizeVideo := true }
  | .optimizeNv => { s with optimize := true, optimizeVideo := false }
  | .noOptimize => { s with unOptimize := true }
  | .regression => { s with regression := true }
  | .quiet => { s with quiet := true }
  | .doctype k => { s with profile := profileOf k }
  | .timecodescale t => { s with scale := match Scanf.stringToInt64 t with | .ok n => n | _ => 0 }
  | .alt3d ds => { s with alt3d := s.alt3d ++ [Scanf.value 10 ds] }
  | .zlib => { s with zlib := true }

/-- The settings but for the arguments left. -/
theorem flag_step (a b : Str) (more : List Str) (s s' : Settings) (h : flag a s = some s') :
    parse (a :: b :: more) s = parse (b :: more) { s' with rest := b :: more } := by
  cases more with
  | nil => conv => lhs; rw [parse, h]
  | cons c more => conv => lhs; rw [parse, h]

theorem valued_step (a v b : Str) (more : List Str) (s s' : Settings) (h1 : flag a s = none) (h2 : valued a v s = some (.go s')) :
    parse (a :: v :: b :: more) s = parse (b :: more) { s' with rest := b :: more } := by
  rw [parse, h1]
  simp only [h2]

theorem decimal_read (ds : List Nat) (hd : ∀ d ∈ ds, d < 10) (hv : Scanf.value 10 ds < 2 ^ 31) :
    Scanf.stringToInt (Scanf.decimal ds) 0 = .ok (Scanf.value 10 ds : Int) := by
  have := Scanf.C175_reads_decimal [] ds [] false (by simp) hd (by simp)
  rw [if_pos (Nat.lt_trans hv (by decide))] at this
  simp only [Scanf.sign, Bool.false_eq_true, if_false, List.nil_append, List.append_nil, Scanf.signed] at this
  rw [this, Scanf.low32_of_nat _ hv]

/-- One option written, with another argument behind it. -/
theorem option_step (o : Opt) (ws : List Str) (b : Str) (more : List Str) (s : Settings) (h : o.Written ws) :
    parse (ws ++ b :: more) s = parse (b :: more) { apply s o with rest := b :: more } := by
  have fl : ∀ (a : Str) (n : String), Word a n → ∀ s', (∀ a', (∀ c, same a' c = Url.ieq (lit n) (lit c)) → flag a' s = some s') → flag a s = some s' :=
    fun a n hw s' hf => hf a (word_same hw)
  cases o with
  | keepCues => obtain ⟨a, rfl, hw⟩ := h; exact flag_step a b more s _ (by unfold flag; simp only [word_same hw]; rfl)
  | remux => obtain ⟨a, rfl, hw⟩ := h; exact flag_step a b more s _ (by unfold flag; simp only [word_same hw]; rfl)
  | live => obtain ⟨a, rfl, hw⟩ := h; exact flag_step a b more s _ (by unfold flag; simp only [word_same hw]; rfl)
  | noSafety => obtain ⟨a, rfl, hw⟩ := h; exact flag_step a b more s _ (by unfold flag; simp only [word_same hw]; rfl)
  | optimize => obtain ⟨a, rfl, hw⟩ := h; exact flag_step a b more s _ (by unfold flag; simp only [word_same hw]; rfl)
  | optimizeNv => obtain ⟨a, rfl, hw⟩ := h; exact flag_step a b more s _ (by unfold flag; simp only [word_same hw]; rfl)
  | noOptimize => obtain ⟨a, rfl, hw⟩ := h; exact flag_step a b more s _ (by unfold flag; simp only [word_same hw]; rfl)
  | regression => obtain ⟨a, rfl, hw⟩ := h; exact flag_step a b more s _ (by unfold flag; simp only [word_same hw]; rfl)
  | quiet => obtain ⟨a, rfl, hw⟩ := h; exact flag_step a b more s _ (by unfold flag; simp only [word_same hw]; rfl)
  | doctype k =>
    obtain ⟨a, rfl, hw⟩ := h
    refine valued_step a _ b more s _ (by unfold flag; simp only [word_same hw]; rfl) ?_
    have hd : doctype [49 + k.val] = some (profileOf k) := by revert k; decide +kernel
    unfold valued
    rw [word_same hw, if_pos (by decide +kernel), hd]
    rfl
  | timecodescale t =>
    obtain ⟨a, rfl, hw⟩ := h
    refine valued_step a _ b more s _ (by unfold flag; simp only [word_same hw]; rfl) ?_
    obtain ⟨v, hv⟩ := Scanf.C176_defined t
    unfold valued
    rw [word_same hw, word_same hw, if_neg (by decide +kernel), if_pos (by decide +kernel)]
    simp only [apply, hv]
  | alt3d ds =>
    obtain ⟨a, rfl, hw, hd, hv⟩ := h
    refine valued_step a _ b more s _ (by unfold flag; simp only [word_same hw]; rfl) ?_
    unfold valued
    rw [word_same hw, word_same hw, word_same hw, if_neg (by decide +kernel), if_neg (by decide +kernel), if_pos (by decide +kernel),
      decimal_read ds hd hv]
    simp only [apply]
    rw [if_pos (by omega)]
    rfl
  | zlib =>
    obtain ⟨a, rfl, hw⟩ := h
    refine valued_step a _ b more s _ (by unfold flag; simp only [word_same hw]; rfl) ?_
    unfold valued
    rw [word_same hw, word_same hw, word_same hw, word_same hw, if_neg (by decide +kernel), if_neg (by decide +kernel),
      if_neg (by decide +kernel), if_pos (by decide +kernel), if_pos (by decide +kernel)]
    rfl

theorem apply_rest (s : Settings) (o : Opt) (r : List Str) : apply { s with rest := r } o = { apply s o with rest := r } := by
  cases o <;> rfl

theorem applies_rest (os : List Opt) : ∀ (s : Settings) (r : List Str), os.foldl apply { s with rest := r } = { os.foldl apply s with rest := r } := by
  induction os with
  | nil => intro s r; rfl
  | cons o os ih => intro s r; rw [List.foldl_cons, List.foldl_cons, apply_rest, ih]

/-- All options written, with a file name behind them. -/
theorem options_step : ∀ (os : List Opt) (ws : List Str) (b : Str) (more : List Str) (s : Settings), Written os ws → s.rest = ws ++ b :: more →
    parse (ws ++ b :: more) s = parse (b :: more) { os.foldl apply s with rest := b :: more }
  | [], ws, b, more, s, h, hr => by
    rw [show ws = [] from h] at hr ⊢
    rw [List.foldl_nil, List.nil_append]
    rw [List.nil_append] at hr
    rw [← hr]
  | o :: os, ws, b, more, s, h, hr => by
    obtain ⟨x, y, rfl, h1, h2⟩ := h
    obtain ⟨c, z, e⟩ : ∃ c z, y ++ b :: more = c :: z := by
      cases y with
      | nil => exact ⟨b, more, rfl⟩
      | cons c y => exact ⟨c, y ++ b :: more, rfl⟩
    rw [List.append_assoc, e, option_step o x c z s h1, ← e, options_step os y b more _ h2 (by rfl), List.foldl_cons, applies_rest]

/-- What the options of a line do to settings. -/
theorem applied (os : List Opt) : ∀ s : Settings,
    (os.foldl apply s).keepCues = (s.keepCues || decide (.keepCues ∈ os)) ∧
    (os.foldl apply s).remux = (s.remux || decide (.remux ∈ os)) ∧
    (os.foldl apply s).live = (s.live || decide (.live ∈ os)) ∧
    (os.foldl apply s).noSafety = (s.noSafety || decide (.noSafety ∈ os)) ∧
    (os.foldl apply s).optimize = (s.optimize || decide (.optimize ∈ os ∨ .optimizeNv ∈ os)) ∧
    (os.foldl apply s).optimizeVideo = (os.filterMap videoOf).getLast?.getD s.optimizeVideo ∧
    (os.foldl apply s).unOptimize = (s.unOptimize || decide (.noOptimize ∈ os)) ∧
    (os.foldl apply s).regression = (s.regression || decide (.regression ∈ os)) ∧
    (os.foldl apply s).quiet = (s.quiet || decide (.quiet ∈ os)) ∧
    (os.foldl apply s).zlib = (s.zlib || decide (.zlib ∈ os)) ∧
    (os.foldl apply s).profile = (os.filterMap doctypeOf).getLast?.getD s.profile ∧
    Out.ok (os.foldl apply s).scale = ((os.filterMap scaleOf).getLast?.map Scanf.stringToInt64).getD (.ok s.scale) ∧
    (os.foldl apply s).alt3d = s.alt3d ++ os.filterMap trackOf ∧
    (os.foldl apply s).showVersion = s.showVersion := by
  induction os with
  | nil => intro s; simp
  | cons o os ih =>
    intro s
    rw [List.foldl_cons]
    obtain ⟨h1, h2, h3, h4, h5, h6, h7, h8, h9, h10, h11, h12, h13, h14⟩ := ih (apply s o)
    rw [h1, h2, h3, h4, h5, h6, h7, h8, h9, h10, h11, h12, h13, h14]
    cases o <;> simp [apply, videoOf, doctypeOf, scaleOf, trackOf, List.filterMap_cons, List.getLast?_cons, -List.getLast?_filterMap]
    case timecodescale t =>
      obtain ⟨v, hv⟩ := Scanf.C176_defined t
      cases (os.filterMap scaleOf).getLast? <;> simp only [hv, Option.map_none, Option.map_some, Option.getD_none, Option.getD_some]

theorem asks (os : List Opt) (r : List Str) : Asks os { os.foldl apply {} with rest := r } := by
  obtain ⟨h1, h2, h3, h4, h5, h6, h7, h8, h9, h10, h11, h12, h13, h14⟩ := applied os {}
  constructor <;> simp_all

/-- C177. A command line of options, in any order and in upper or lower case, then the source and perhaps the output,
whose names do not look like options, is read as what it asks for. -/
theorem C177_command_line (os : List Opt) (ws : List Str) (src : Str) (dst : Option Str) (hw : Written os ws) (h1 : Plain src)
    (h2 : ∀ d, dst = some d → Plain d) : ∃ s, Asks os s ∧ start (ws ++ src :: dst.toList) = .run s src dst := by
  refine ⟨{ os.foldl apply {} with rest := src :: dst.toList }, asks os _, ?_⟩
  have hs := (asks os (src :: dst.toList)).noText
  have hp : parse (src :: dst.toList) { os.foldl apply { rest := ws ++ src :: dst.toList } with rest := src :: dst.toList } =
      .go { os.foldl apply {} with rest := src :: dst.toList } := by
    have e : os.foldl apply { rest := ws ++ src :: dst.toList } = { os.foldl apply {} with rest := ws ++ src :: dst.toList } :=
      applies_rest os {} _
    rw [e]
    cases dst with
    | none => simp only [Option.toList_none]; rw [parse, plain_flag src h1]
    | some d => simp only [Option.toList_some]; rw [parse, plain_flag src h1]; simp only []; rw [parse, plain_flag d (h2 d rfl)]
  unfold start
  rw [options_step os ws src dst.toList { rest := ws ++ src :: dst.toList } hw rfl, hp]
  simp only [] at hs ⊢
  rw [if_neg (by rw [hs]; simp)]
  cases dst <;> rfl

/-- Names that do not look like options are passed over. -/
theorem plain_valued (a v : Str) (h : Plain a) (s : Settings) : valued a v s = none := by
  unfold valued
  have key := plain_same a h
  rw [if_neg (by rw [show same a "--doctype" = false from key "doctype".toList]; simp),
    if_neg (by rw [show same a "--timecodescale" = false from key "timecodescale".toList]; simp),
    if_neg (by rw [show same a "--alt-3d" = false from key "alt-3d".toList]; simp),
    if_neg (by rw [show same a "--compalgo" = false from key "compalgo".toList]; simp)]

theorem plain_parse : ∀ (names : List Str), (∀ a ∈ names, Plain a) → ∀ s, parse names s = .go s
  | [], _, s => rfl
  | [a], h, s => by rw [parse, plain_flag a (h a (by simp))]
  | [a, b], h, s => by
    rw [parse, plain_flag a (h a (by simp))]
    exact plain_parse [b] (fun x hx => h x (by simp_all)) s
  | a :: v :: b :: more, h, s => by
    rw [parse, plain_flag a (h a (by simp))]
    simp only [plain_valued a v (h a (by simp)) s]
    exact plain_parse (v :: b :: more) (fun x hx => h x (by simp_all)) s

/-- C177. With more than two names, the last is the output and those between are not used. -/
theorem C177_more_names (os : List Opt) (ws : List Str) (src : Str) (more : List Str) (hw : Written os ws)
    (h : ∀ a ∈ src :: more, Plain a) : ∃ s, Asks os s ∧ start (ws ++ src :: more) = .run s src more.getLast? := by
  refine ⟨{ os.foldl apply {} with rest := src :: more }, asks os _, ?_⟩
  have hs := (asks os (src :: more)).noText
  have e : os.foldl apply { rest := ws ++ src :: more } = { os.foldl apply {} with rest := ws ++ src :: more } := applies_rest os {} _
  unfold start
  rw [options_step os ws src more { rest := ws ++ src :: more } hw rfl, plain_parse _ h, e]
  simp only [] at hs ⊢
  rw [if_neg (by rw [hs]; simp)]

theorem shown (os : List Opt) (s : Settings) : (os.foldl apply s).showVersion = s.showVersion := (applied os s).2.2.2.2.2.2.2.2.2.2.2.2.2

/-- C177. With `--help` or `--version` anywhere among the options, mkclean ends with an error and does nothing, whatever
else is asked for. -/
theorem C177_help (os os' : List Opt) (ws vs : List Str) (a src : Str) (more : List Str) (hw : Written os ws) (hv : Written os' vs)
    (ha : Word a "--help" ∨ Word a "--version") (h : ∀ a ∈ src :: more, Plain a) :
    start (ws ++ a :: vs ++ src :: more) = .stop (-1) := by
  obtain ⟨c, z, e⟩ : ∃ c z, vs ++ src :: more = c :: z := by
    cases vs with
    | nil => exact ⟨src, more, rfl⟩
    | cons c y => exact ⟨c, y ++ src :: more, rfl⟩
  obtain ⟨s', hf, hs'⟩ : ∃ s', flag a { os.foldl apply { rest := ws ++ a :: c :: z } with rest := a :: c :: z } = some s' ∧ s'.showVersion = true := by
    rcases ha with ha | ha
    · exact ⟨_, by unfold flag; simp only [word_same ha]; rfl, rfl⟩
    · exact ⟨_, by unfold flag; simp only [word_same ha]; rfl, rfl⟩
  have hp : parse (ws ++ a :: vs ++ src :: more) { rest := ws ++ a :: vs ++ src :: more } =
      .go { os'.foldl apply { s' with rest := vs ++ src :: more } with rest := src :: more } := by
    rw [List.append_assoc, List.cons_append, e, options_step os ws a (c :: z) _ hw rfl, flag_step a c z _ s' hf, ← e,
      options_step os' vs src more _ hv rfl, plain_parse _ h]
  unfold start
  rw [hp]
  simp only [shown, hs']
  rfl

/-- C177. A `--doctype` other than 1 to 7, and a `--compalgo` other than 0, end mkclean with an error. -/
theorem C177_refused (os : List Opt) (ws : List Str) (a v b : Str) (more : List Str) (hw : Written os ws)
    (ha : Word a "--doctype" ∧ (∀ k : Fin 7, v ≠ [49 + k.val]) ∨ Word a "--compalgo" ∧ v ≠ lit "0") :
    start (ws ++ a :: v :: b :: more) = .stop (-8) := by
  have one : ∀ (v : Str) (c : Nat) (n : String), lit n = [c] → c < 97 → 47 < c → c < 58 → same v n = true → v = [c] := by
    intro v c n hn h1 h2 h3 h
    unfold same Url.ieq at h
    rw [hn, beq_iff_eq] at h
    match v, h with
    | [], h => simp at h
    | [x], h =>
      simp only [List.map_cons, List.map_nil, List.cons.injEq, and_true] at h
      unfold Url.upper at h
      rw [if_neg (c := 97 ≤ c ∧ c ≤ 122) (by omega)] at h
      split at h
      · omega
      · rw [h]
    | x :: y :: v, h => simp at h
  have hp : ∀ s, parse (a :: v :: b :: more) s = .stop (-8) := by
    intro s
    rcases ha with ⟨ha, hv⟩ | ⟨ha, hv⟩
    · have hf : flag a s = none := by unfold flag; simp only [word_same ha]; rfl
      have hd : doctype v = none := by
        have n : ∀ (k : Fin 7) (n : String), lit n = [49 + k.val] → ¬ same v n = true := fun k n hn h =>
          hv k (one v _ n hn (by omega) (by omega) (by omega) h)
        unfold doctype
        rw [if_neg (n 0 "1" rfl), if_neg (n 1 "2" rfl), if_neg (n 2 "3" rfl), if_neg (n 3 "4" rfl), if_neg (n 4 "5" rfl),
          if_neg (n 5 "6" rfl), if_neg (n 6 "7" rfl)]
      rw [parse, hf]
      have : valued a v s = some (.stop (-8)) := by
        unfold valued
        rw [word_same ha, if_pos (by decide +kernel), hd]
      simp only [this]
    · have hf : flag a s = none := by unfold flag; simp only [word_same ha]; rfl
      rw [parse, hf]
      have : valued a v s = some (.stop (-8)) := by
        unfold valued
        rw [word_same ha, word_same ha, word_same ha, word_same ha, if_neg (by decide +kernel), if_neg (by decide +kernel),
          if_neg (by decide +kernel), if_pos (by decide +kernel), if_neg]
        exact fun h => hv (one v 48 "0" rfl (by decide) (by decide) (by decide) h)
      simp only [this]
  unfold start
  rw [options_step os ws a (v :: b :: more) _ hw rfl, hp]

/-- C177 as a whole: no command line is undefined behaviour, and file names are found wherever the options are. -/
def CommandLine : Prop :=
  (∀ args, start args ≠ .bad) ∧
  ∀ (os : List Opt) (ws vs us : List Str) (src dst : Str), Written os ws → Plain src → Plain dst → ws = vs ++ us →
    ∃ s, start (vs ++ src :: us ++ [dst]) = .run s src (some dst)

/-- C177 fails: a negative track number is a write outside of the memory, and with an option behind the source, the output
is read and the source is not. -/
theorem C177_counterexample : ¬ CommandLine ∧
    start [lit "--alt-3d", lit "-1", lit "in.mkv"] = .bad ∧
    start [lit "in.mkv", lit "--remux", lit "out.mkv"] = .run { remux := true, rest := [lit "out.mkv"] } (lit "out.mkv") none ∧
    start [lit "in.mkv", lit "--remux"] = .stop (-1) := by
  have h1 : start [lit "--alt-3d", lit "-1", lit "in.mkv"] = .bad := by decide +kernel
  exact ⟨fun h => h.1 _ h1, h1, by decide +kernel, by decide +kernel⟩

/-! ### The TimestampScale -/

/-- C178: `--timecodescale` with any number that does not begin with `0x` is as if it were not given. -/
theorem C178_option_ignored (text : Str) (h : text.take 2 ≠ lit "0x") (old : Int) :
    ∃ v, Scanf.stringToInt64 text = .ok v ∧ newScale v old = newScale 0 old :=
  ⟨0, Scanf.C176_decimal_is_zero text h, rfl⟩

theorem double_pos (v : Int) (h0 : 0 < v) (h : v < 100000) : double v = v * 2 := by
  unfold double Scanf.wrap64
  simp only [Int.reducePow]
  omega

theorem grow_spec : ∀ (fuel : Nat) (v : Int), 0 < v → v < 2 ^ 63 → 100000 ≤ v * 2 ^ fuel →
    ∃ k, grow fuel v = .ok (v * 2 ^ k) ∧ 100000 ≤ v * 2 ^ k ∧ ∀ j, j < k → v * 2 ^ j < 100000
  | 0, v, h0, hm, h => ⟨0, by
      simp only [Int.pow_zero, Int.mul_one] at h ⊢
      refine ⟨by rw [grow, if_neg (by omega)], h, by simp⟩⟩
  | fuel + 1, v, h0, hm, h => by
    by_cases hv : v < 100000
    · obtain ⟨k, e1, e2, e3⟩ := grow_spec fuel (v * 2) (by omega) (by simp only [Int.reducePow]; omega)
        (by rw [Int.mul_assoc, Int.mul_comm 2, ← Int.pow_succ]; exact h)
      have hk : v * 2 * 2 ^ k = v * 2 ^ (k + 1) := by rw [Int.mul_assoc, Int.mul_comm 2, ← Int.pow_succ]
      rw [hk] at e1 e2
      refine ⟨k + 1, by rw [grow, if_pos hv, double_pos v h0 hv, e1], e2, ?_⟩
      intro j hj
      cases j with
      | zero => simpa using hv
      | succ j =>
        have := e3 j (by omega)
        rwa [Int.mul_assoc, Int.mul_comm 2, ← Int.pow_succ] at this
    · exact ⟨0, by rw [grow, if_neg hv]; simp, by simp; omega, by simp⟩

/-- C178: a TimestampScale above 0 is doubled until it is 100000 or more, and no further. -/
theorem C178_scale (old : Int) (h0 : 0 < old) (hm : old < 2 ^ 63) :
    ∃ k, newScale 0 old = .ok (old * 2 ^ k) ∧ 100000 ≤ old * 2 ^ k ∧ (∀ j, j < k → old * 2 ^ j < 100000) ∧ old * 2 ^ k < 2 ^ 63 := by
  obtain ⟨k, e1, e2, e3⟩ := grow_spec 64 old h0 hm (by simp only [Int.reducePow]; omega)
  refine ⟨k, by unfold newScale; rw [if_pos rfl, e1], e2, e3, ?_⟩
  cases k with
  | zero => simpa using hm
  | succ k =>
    have := e3 k (by omega)
    rw [Int.pow_succ, ← Int.mul_assoc]
    simp only [Int.reducePow]
    omega

theorem wrap_double (a : Int) : double (Scanf.wrap64 a) = Scanf.wrap64 (a * 2) := by
  unfold double Scanf.wrap64
  simp only [Int.reducePow]
  omega

theorem wrap_64 (v : Int) (n : Nat) : Scanf.wrap64 (v * 2 ^ (64 + n)) = 0 := by
  rw [Int.pow_add, ← Int.mul_assoc, Int.mul_comm v, Int.mul_assoc]
  unfold Scanf.wrap64
  simp only [Int.reducePow]
  omega

theorem grow_hang : ∀ (fuel k : Nat) (v : Int), grow fuel (Scanf.wrap64 (v * 2 ^ k)) = .hang →
    ∀ n, n ≤ fuel → Scanf.wrap64 (v * 2 ^ (k + n)) < 100000
  | 0, k, v, h, n, hn => by
    rw [show n = 0 from by omega, Nat.add_zero]
    rw [grow] at h
    split at h
    · assumption
    · simp at h
  | fuel + 1, k, v, h, n, hn => by
    rw [grow] at h
    split at h
    · rename_i hlt
      rw [wrap_double, Int.mul_assoc, ← Int.pow_succ] at h
      cases n with
      | zero => exact hlt
      | succ n =>
        have := grow_hang fuel (k + 1) v h n (by omega)
        rwa [show k + 1 + n = k + (n + 1) from by omega] at this
    · simp at h

/-- C178: where the model says that the loop does not end, it does not end: after any number of doublings in 64 bits, the
value is below 100000. TimestampScale 0 is such a case. -/
theorem C178_hangs (old : Int) (hm : -2 ^ 63 ≤ old ∧ old < 2 ^ 63) (h : newScale 0 old = .hang) (n : Nat) :
    Scanf.wrap64 (old * 2 ^ n) < 100000 := by
  have e : Scanf.wrap64 (old * 2 ^ 0) = old := by
    unfold Scanf.wrap64
    simp only [Int.reducePow] at *
    omega
  unfold newScale at h
  rw [if_pos rfl, ← e] at h
  by_cases hn : n ≤ 64
  · have := grow_hang 64 0 old h n hn
    rwa [Nat.zero_add] at this
  · rw [show n = 64 + (n - 64) from by omega, wrap_64]
    decide

/-- C178: a scale that is read as another number than 0 is the scale of the output, of whatever size. -/
theorem C178_asked (asked old : Int) (h : asked ≠ 0) : newScale asked old = .ok asked := by
  unfold newScale
  rw [if_neg h]

/-- C178 as a whole: a TimestampScale that is asked for is the one of the output, and the work ends. -/
def ScaleAsAsked : Prop :=
  (∀ (ds : List Nat) (old : Int), (∀ d ∈ ds, d < 10) → 0 < Scanf.value 10 ds → Scanf.value 10 ds < 2 ^ 63 → 0 < old → old < 2 ^ 63 →
    ∃ v, Scanf.stringToInt64 (Scanf.decimal ds) = .ok v ∧ newScale v old = .ok (Scanf.value 10 ds)) ∧
  ∀ old, 0 ≤ old → old < 2 ^ 63 → newScale 0 old ≠ .hang

/-- C178 fails: 500000 asked for, for a source of 1000000, gives 1000000, and TimestampScale 0 never ends. -/
theorem C178_counterexample : ¬ ScaleAsAsked ∧ newScale 0 0 = .hang ∧ newScale 0 1000000 = .ok 1000000 ∧
    Scanf.stringToInt64 (lit "500000") = .ok 0 := by
  have h : newScale 0 0 = .hang := by decide +kernel
  exact ⟨fun hs => hs.2 0 (by decide) (by decide) h, h, by decide +kernel, by decide +kernel⟩

/-! ### The EBML head -/

/-- The values of a head that mkclean can work with: none of them is missing or above the limit, and the type is known. -/
def Item.Fine : Item → Prop
  | .readVersion v => ∃ x, v = some x ∧ x ≤ 1
  | .maxId v => ∃ x, v = some x ∧ x ≤ 4
  | .maxSize v => ∃ x, v = some x ∧ x ≤ 8
  | .docType t => t = some (lit "matroska") ∨ t = some (lit "webm")
  | .docTypeReadVersion v => ∃ x, v = some x ∧ x ≤ 2
  | .other => True
  | .segment => False

def typeOf : Item → Option Nat
  | .docType t => if t = some (lit "webm") then some pWebm else some pV1
  | _ => none
def versionOf : Item → Option Int
  | .docTypeReadVersion v => some (Scanf.low32 (v.getD 0))
  | _ => none

theorem within_iff (l : Int) (v : Option Int) : within l v = true ↔ ∃ x, v = some x ∧ x ≤ l := by
  cases v <;> simp [within]

/-- C179. A head is accepted exactly when a Segment follows and everything before it is fine. -/
theorem C179_accepted (items : List Item) (d : Doc) :
    (checkHead items d).1 = true ↔ ∃ a b, items = a ++ .segment :: b ∧ ∀ i ∈ a, i.Fine := by
  induction items generalizing d with
  | nil => simp [checkHead]
  | cons i l ih =>
    have tail : ∀ j : Item, j ≠ .segment → ((∃ a b, j :: l = a ++ .segment :: b ∧ ∀ i ∈ a, i.Fine) ↔
        j.Fine ∧ ∃ a b, l = a ++ .segment :: b ∧ ∀ i ∈ a, i.Fine) := by
      intro j hj
      constructor
      · rintro ⟨a, b, e, h⟩
        cases a with
        | nil => simp at e; exact absurd e.1 hj
        | cons x a =>
          simp at e
          exact ⟨e.1 ▸ h x (by simp), a, b, e.2, fun i hi => h i (by simp [hi])⟩
      · rintro ⟨h1, a, b, e, h⟩
        exact ⟨j :: a, b, by rw [e]; rfl, fun i hi => (List.mem_cons.1 hi).elim (fun e => e ▸ h1) (h i)⟩
    cases i with
    | segment => simp only [checkHead, true_iff]; exact ⟨[], l, rfl, by simp⟩
    | other => rw [checkHead, ih, tail _ (by simp)]; simp [Item.Fine]
    | readVersion v =>
      rw [checkHead, tail _ (by simp), Item.Fine, ← within_iff]
      by_cases h : within 1 v = true
      · rw [if_pos h, ih]; simp [h]
      · rw [if_neg h]; simp [h]
    | maxId v =>
      rw [checkHead, tail _ (by simp), Item.Fine, ← within_iff]
      by_cases h : within 4 v = true
      · rw [if_pos h, ih]; simp [h]
      · rw [if_neg h]; simp [h]
    | maxSize v =>
      rw [checkHead, tail _ (by simp), Item.Fine, ← within_iff]
      by_cases h : within 8 v = true
      · rw [if_pos h, ih]; simp [h]
      · rw [if_neg h]; simp [h]
    | docType t =>
      rw [checkHead, tail _ (by simp), Item.Fine]
      by_cases h : t = some (lit "matroska")
      · rw [if_pos h, ih]; simp [h]
      · rw [if_neg h]
        by_cases h2 : t = some (lit "webm")
        · rw [if_pos h2, ih]; simp [h2]
        · rw [if_neg h2]; simp [h, h2]
    | docTypeReadVersion v =>
      rw [tail _ (by simp), Item.Fine]
      cases v with
      | none => simp [checkHead]
      | some x =>
        by_cases h : x ≤ 2
        · simp only [checkHead]; rw [if_pos h, ih]; simp [h]
        · simp only [checkHead]; rw [if_neg h]; simp [h]

/-- C179: what is then known of the source is the last DocType and the last DocTypeReadVersion before the Segment. -/
theorem C179_doc (a b : List Item) (d : Doc) (h : ∀ i ∈ a, i.Fine) :
    (checkHead (a ++ .segment :: b) d).2 =
      ⟨(a.filterMap typeOf).getLast?.getD d.profile, (a.filterMap versionOf).getLast?.getD d.version⟩ := by
  induction a generalizing d with
  | nil => simp [checkHead]
  | cons i a ih =>
    have hi := h i (by simp)
    have ih' := fun d => ih d (fun j hj => h j (by simp [hj]))
    rw [List.cons_append]
    cases i with
    | segment => exact absurd hi (by simp [Item.Fine])
    | other => rw [checkHead, ih']; simp [List.filterMap_cons, typeOf, versionOf]
    | readVersion v => rw [checkHead, if_pos ((within_iff 1 v).2 hi), ih']; simp [List.filterMap_cons, typeOf, versionOf]
    | maxId v => rw [checkHead, if_pos ((within_iff 4 v).2 hi), ih']; simp [List.filterMap_cons, typeOf, versionOf]
    | maxSize v => rw [checkHead, if_pos ((within_iff 8 v).2 hi), ih']; simp [List.filterMap_cons, typeOf, versionOf]
    | docType t =>
      rw [checkHead]
      rcases hi with rfl | rfl
      · rw [if_pos rfl, ih']
        have e : typeOf (.docType (some (lit "matroska"))) = some pV1 := by decide
        rw [List.filterMap_cons_some e]
        simp [List.filterMap_cons, versionOf, List.getLast?_cons, -List.getLast?_filterMap]
      · rw [if_neg (by decide), if_pos rfl, ih']
        have e : typeOf (.docType (some (lit "webm"))) = some pWebm := by decide
        rw [List.filterMap_cons_some e]
        simp [List.filterMap_cons, versionOf, List.getLast?_cons, -List.getLast?_filterMap]
    | docTypeReadVersion v =>
      obtain ⟨x, rfl, hx⟩ := hi
      simp only [checkHead]
      rw [if_pos hx, ih']
      simp [List.filterMap_cons, typeOf, versionOf, List.getLast?_cons]

/-- The head mkclean writes for a profile, as it is found in its output, 1993-2004. -/
def written (p : Nat) (d : Doc) : List Item :=
  [.docType (some (headOf p d).1), .docTypeReadVersion (some (headOf p d).2), .segment]

/-- C179: what mkclean writes for `--doctype` 3, 6 and 7 it does not read. -/
theorem C179_own_output (p : Nat) (hp : p = pV3 ∨ p = pV4 ∨ p = pV5) (d e : Doc) : (checkHead (written p d) e).1 = false := by
  rcases hp with rfl | rfl | rfl <;> rfl

/-- C179: for the other types with a version of their own, it does, with the same profile. -/
theorem C179_own_output_read (p : Nat) (hp : p = pV2 ∨ p = pWebm) (d : Doc) :
    (checkHead (written p d) {}).1 = true ∧ srcProfile (checkHead (written p d) {}).2 = p := by
  have h2 : written pV2 d = [.docType (some (lit "matroska")), .docTypeReadVersion (some 2), .segment] := rfl
  have hw : written pWebm d = [.docType (some (lit "webm")), .docTypeReadVersion (some 2), .segment] := rfl
  rcases hp with rfl | rfl
  · rw [h2]; decide
  · rw [hw]; decide

/-- C179: a source that is accepted is version 1 or 2, WebM or of no type; versions 3 to 5 never get that far. -/
theorem C179_source_profiles (a b : List Item) (h : ∀ i ∈ a, i.Fine) (hv : ∀ x, .docTypeReadVersion (some x) ∈ a → 0 ≤ x) :
    srcProfile (checkHead (a ++ .segment :: b) {}).2 = if (a.filterMap typeOf).getLast? = some pV1 ∧ (a.filterMap versionOf).getLast? = some 2
      then pV2 else (a.filterMap typeOf).getLast?.getD 0 := by
  rw [C179_doc a b {} h]
  have ht : ∀ x, (a.filterMap typeOf).getLast? = some x → x = pV1 ∨ x = pWebm := by
    intro x hx
    obtain ⟨i, _, hi⟩ := List.mem_filterMap.1 (List.mem_of_getLast? hx)
    cases i <;> simp [typeOf] at hi
    split at hi <;> simp_all
  have hw : ∀ x, (a.filterMap versionOf).getLast? = some x → x ≤ 2 := by
    intro x hx
    obtain ⟨i, hm, hi⟩ := List.mem_filterMap.1 (List.mem_of_getLast? hx)
    cases i with
    | docTypeReadVersion v =>
      obtain ⟨y, rfl, hy⟩ := h _ hm
      have := hv y hm
      simp only [versionOf, Option.getD_some, Option.some.injEq] at hi
      rw [Scanf.low32_id y (by simp only [Int.reducePow]; omega) (by simp only [Int.reducePow]; omega)] at hi
      omega
    | _ => simp [versionOf] at hi
  unfold srcProfile
  cases h1 : (a.filterMap typeOf).getLast? with
  | none => simp
  | some x =>
    simp only [Option.getD_some, Option.some.injEq]
    have hx := ht x h1
    cases h2 : (a.filterMap versionOf).getLast? with
    | none => simp
    | some y =>
      have hy := hw y h2
      simp only [Option.getD_some, Option.some.injEq]
      rw [if_neg (c := x = pV1 ∧ y = 3) (by omega), if_neg (c := x = pV1 ∧ y = 4) (by omega), if_neg (c := x = pV1 ∧ y = 5) (by omega)]

/-- C179 as a whole: the version of the output is that of the DocType asked for, and mkclean reads what it writes. -/
def HeadAsAsked : Prop :=
  (∀ d, (headOf pV1 d).2 = 1) ∧ ∀ p d e, p ∈ [pV1, pV2, pV3, pV4, pV5, pWebm, pDivx] → d.version ≤ 2 → (checkHead (written p d) e).1 = true

/-- C179 fails: `--doctype 1` on a source of version 2 writes version 2, and Matroska 3 that mkclean wrote it does not
read. -/
theorem C179_counterexample : ¬ HeadAsAsked ∧ headOf pV1 { profile := pV1, version := 2 } = (lit "matroska", 2) ∧
    (checkHead (written pV3 {}) {}).1 = false := by
  refine ⟨fun h => ?_, by decide, by decide⟩
  have := h.1 { profile := pV1, version := 2 }
  revert this
  decide

/-! ### Elements of later versions -/

open Verif.Ebml.Master in
/-- C180: what mkclean leaves of any master, for a profile: all children but the first are allowed in the profile. -/
theorem C180_only_allowed (p r : Nat) (kids kids' : List T) (hm : (mkv.ctx r).cls = .master)
    (h : reduce mkv rBlockGroup p 3 (.node r kids) = some [.node r kids']) (j : Nat) (hj : 1 ≤ j) (k : T) (hk : kids'[j]? = some k) :
    Acceptable mkv p r kids' k := by
  rw [reduce, if_neg (by rw [hm]; decide)] at h
  split at h
  · simp at h
  · cases hl : reduceList mkv rBlockGroup p 3 kids with
    | none => rw [hl] at h; simp at h
    | some l =>
      rw [hl] at h
      simp only [] at h
      rw [reduceEnd] at h
      split at h
      · simp at h
      · cases ha : addMandatory mkv p true 3 r l with
        | none => rw [ha] at h; simp at h
        | some ks =>
          rw [ha] at h
          simp only [] at h
          obtain ⟨ks', log, h1, _, h3, _⟩ := C100_removal_partial mkv mkv_distinct p r ks
          rw [h1] at h
          simp only [Option.some.injEq, List.cons.injEq, T.node.injEq, true_and, and_true] at h
          subst h
          exact h3 j k hj hk

/-- The head of the files mkvmerge writes: DocTypeVersion 4 (which mkclean does not look at), DocTypeReadVersion 2. -/
def mkvmergeHead : List Item :=
  [.other, .readVersion (some 1), .maxId (some 4), .maxSize (some 8), .docType (some (lit "matroska")), .other,
   .docTypeReadVersion (some 2), .segment]

open Verif.Ebml.Master in
/-- C180 as a whole: without options, an element the source may have stays. -/
def KeepsElements : Prop := ∀ (items : List Item) (r : Nat) (kids kids' : List T), (checkHead items {}).1 = true → (mkv.ctx r).cls = .master →
  reduce mkv rBlockGroup (dstProfile 0 (checkHead items {}).2) 3 (.node r kids) = some [.node r kids'] →
  ∀ k ∈ kids, (∀ s, entry mkv r k = some s → s.disabled &&& pV4 = 0 ∧ s.unique = true ∧ (kids.filter (·.id mkv = k.id mkv)).length = 1) →
    ∃ k' ∈ kids', k'.id mkv = k.id mkv

open Verif.Ebml.Master in
/-- C180 fails: of a track of such a file, CodecDelay (row 100) and SeekPreRoll (101), elements of version 4, are lost. -/
theorem C180_counterexample : ¬ KeepsElements ∧ dstProfile 0 (checkHead mkvmergeHead {}).2 = pV2 ∧
    (mkv.ctx 100).id = 0x56AA ∧ (mkv.ctx 101).id = 0x56BB := by
  have hp : dstProfile 0 (checkHead mkvmergeHead {}).2 = pV2 := by decide
  refine ⟨fun h => ?_, hp, by decide +kernel, by decide +kernel⟩
  have hr : ∃ kids', reduce mkv rBlockGroup pV2 3 (.node 192 [.node 64 [], .node 65 [], .node 66 [], .node 91 [], .node 100 [], .node 101 []]) =
      some [.node 192 kids'] ∧ ∀ k' ∈ kids', k'.id mkv ≠ 0x56AA := ⟨_, rfl, by decide +kernel⟩
  obtain ⟨kids', e1, e2⟩ := hr
  rw [← hp] at e1
  obtain ⟨k', hk, hid⟩ := h mkvmergeHead 192 _ kids' (by decide) (by decide +kernel) e1 (.node 100 []) (by simp) (by
    have key : ∀ s ∈ (mkv.ctx 192).sem, (mkv.ctx s.ref).id = 0x56AA → s.disabled &&& pV4 = 0 ∧ s.unique = true := by decide +kernel
    intro s hs
    rw [entry, if_neg (by decide +kernel)] at hs
    have hm := List.mem_of_find?_eq_some hs
    have he := List.find?_some hs
    have hid : (mkv.ctx s.ref).id = 0x56AA := by
      rw [beq_iff_eq] at he
      rw [he]
      decide +kernel
    exact ⟨(key s hm hid).1, (key s hm hid).2, by decide +kernel⟩)
  refine e2 k' hk ?_
  rw [hid]
  decide +kernel

/-! ### The exit code -/

/-- The source was read and its tracks are in order. -/
structure Ready (s : Settings) (f : Facts) : Prop where
  head : f.hasHead = true
  accepted : (checkHead f.head {}).1 = true
  info : f.hasInfo = true
  scale : ∃ v, newScale s.scale f.oldScale = .ok v
  tracks : f.hasClusters = true → f.hasTracks = true
  cleaned : f.hasTracks = true → f.cleaned = 0

/-- Tracks are marked with `--alt-3d`, and one of them is left, or there are no Tracks at all. -/
def Marked (s : Settings) (f : Facts) : Prop := s.alt3d ≠ [] ∧ (f.hasTracks = true → f.alt3dLeft = true)

/-- Blocks are put into new Clusters: asked for, or because of `--alt-3d`. -/
def Redone (s : Settings) (f : Facts) : Prop := f.hasTracks = true ∧ (s.remux = true ∨ s.regression = false ∧ Marked s f)

/-- `--alt-3d` for a profile without it. -/
def Alt3dRefused (s : Settings) (f : Facts) : Prop :=
  Marked s f ∧ finalProfile s f ≠ pV3 ∧ finalProfile s f ≠ pV4 ∧ finalProfile s f ≠ pV5

theorem refused_iff (s : Settings) (f : Facts) : alt3dRefused s f = true ↔ Alt3dRefused s f := by
  unfold alt3dRefused Alt3dRefused alt3dOn Marked
  cases s.alt3d <;> cases f.hasTracks <;> cases f.alt3dLeft <;> simp [and_assoc]

theorem redone_iff (s : Settings) (f : Facts) : (remuxes s f = true ∧ f.hasTracks = true) ↔ Redone s f := by
  unfold remuxes Redone alt3dOn Marked
  cases s.alt3d <;> cases s.remux <;> cases s.regression <;> cases f.hasTracks <;> cases f.alt3dLeft <;> simp

/-- Everything in order up to the Clusters. -/
def Begun (s : Settings) (f : Facts) : Prop := Ready s f ∧ ¬ Alt3dRefused s f ∧ f.headFails = false

theorem work_ready {s : Settings} {f : Facts} (h : Ready s f) : work s f =
    if alt3dRefused s f then .quits
    else if f.headFails then .quits
    else if f.segmentFails then .fails (-10)
    else if f.linked ≠ 0 then .fails f.linked
    else if crashes s f then .crash
    else if remuxes s f ∧ f.hasTracks ∧ ¬ f.mainTrack then .quits
    else if remuxes s f ∧ f.hasTracks ∧ ¬ f.keyframe then .quits
    else if remuxes s f ∧ f.hasTracks ∧ f.appendFails then .fails (-46)
    else
      match f.writeFails with
      | some c => .fails c
      | none => .complete := by
  obtain ⟨v, hv⟩ := h.scale
  unfold work
  rw [if_neg (by simp [h.head]), if_neg (by simp [h.accepted]), if_neg (by simp [h.info])]
  simp only [hv]
  rw [if_neg (by intro hx; exact hx.1 (h.tracks hx.2)), if_neg (by intro hx; exact hx.2 (h.cleaned hx.1))]
  rfl

/-- There are no Tracks, and all but video tracks are to be optimized, for another profile than WebM. -/
def NoTracksCrash (s : Settings) (f : Facts) : Prop :=
  f.hasTracks = false ∧ s.optimize = true ∧ s.optimizeVideo = false ∧ s.unOptimize = false ∧
    dstProfile s.profile (checkHead f.head {}).2 ≠ pWebm

theorem crash_iff (s : Settings) (f : Facts) : crashes s f = true ↔ NoTracksCrash s f := by
  unfold crashes NoTracksCrash webmSettings
  by_cases h : dstProfile s.profile (checkHead f.head {}).2 = pWebm
  · simp [h]
  · simp only [h, if_false]
    cases s.optimize <;> cases s.unOptimize <;> cases s.optimizeVideo <;> cases f.hasTracks <;> simp [h]

theorem work_not_ready {s : Settings} {f : Facts} (h : ¬ Ready s f) : work s f ≠ .complete ∧ work s f ≠ .quits ∧ work s f ≠ .crash := by
  unfold work
  by_cases h1 : f.hasHead = true
  · rw [if_neg (by simp [h1])]
    by_cases h2 : (checkHead f.head {}).1 = true
    · rw [if_neg (by simp [h2])]
      by_cases h3 : f.hasInfo = true
      · rw [if_neg (by simp [h3])]
        cases h4 : newScale s.scale f.oldScale with
        | ok v =>
          simp only []
          by_cases h5 : ¬ f.hasTracks = true ∧ f.hasClusters = true
          · rw [if_pos h5]; simp
          · rw [if_neg h5]
            by_cases h6 : f.hasTracks = true ∧ f.cleaned ≠ 0
            · rw [if_pos h6]; simp
            · refine absurd ⟨h1, h2, h3, ⟨v, h4⟩, fun hc => ?_, fun ht => ?_⟩ h
              · exact Classical.byContradiction fun ht => h5 ⟨ht, hc⟩
              · exact Classical.byContradiction fun hc => h6 ⟨ht, hc⟩
        | _ => simp
      · rw [if_pos (by simpa using h3)]; simp
    · rw [if_pos (by simpa using h2)]; simp
  · rw [if_pos (by simpa using h1)]; simp

/-- C181. The file is complete exactly when all of this holds. -/
theorem C181_complete_iff (s : Settings) (f : Facts) : work s f = .complete ↔
    Begun s f ∧ f.segmentFails = false ∧ f.linked = 0 ∧ ¬ NoTracksCrash s f ∧
      (Redone s f → f.mainTrack = true ∧ f.keyframe = true ∧ f.appendFails = false) ∧ f.writeFails = none := by
  unfold Begun
  by_cases h : Ready s f
  · rw [work_ready h, ← refused_iff, ← redone_iff, ← crash_iff]
    have hc : f.hasTracks = true → crashes s f = false := by intro ht; unfold crashes; simp [ht]
    revert hc
    cases alt3dRefused s f <;> cases f.headFails <;> cases f.segmentFails <;> cases remuxes s f <;> cases crashes s f <;> cases f.hasTracks <;>
      cases f.mainTrack <;> cases f.keyframe <;> cases f.appendFails <;> cases f.writeFails <;> simp [h] <;>
      (by_cases hl : f.linked = 0 <;> simp [hl])
  · exact ⟨fun hc => absurd hc (work_not_ready h).1, fun hc => absurd hc.1.1 h⟩

/-- C181. Exactly then mkclean ends with exit code 0 without a complete file. -/
theorem C181_quits_iff (s : Settings) (f : Facts) : work s f = .quits ↔
    Ready s f ∧ (Alt3dRefused s f ∨ f.headFails = true ∨
      f.segmentFails = false ∧ f.linked = 0 ∧ Redone s f ∧ (f.mainTrack = false ∨ f.keyframe = false)) := by
  by_cases h : Ready s f
  · rw [work_ready h, ← refused_iff, ← redone_iff]
    have hc : f.hasTracks = true → crashes s f = false := by intro ht; unfold crashes; simp [ht]
    revert hc
    cases alt3dRefused s f <;> cases f.headFails <;> cases f.segmentFails <;> cases remuxes s f <;> cases crashes s f <;> cases f.hasTracks <;>
      cases f.mainTrack <;> cases f.keyframe <;> cases f.appendFails <;> cases f.writeFails <;> simp [h] <;>
      (by_cases hl : f.linked = 0 <;> simp [hl])
  · exact ⟨fun hc => absurd hc (work_not_ready h).2.1, fun hc => absurd hc.1 h⟩

/-- C181. Exactly then mkclean crashes, with a null pointer. -/
theorem C181_crash_iff (s : Settings) (f : Facts) : work s f = .crash ↔
    Begun s f ∧ f.segmentFails = false ∧ f.linked = 0 ∧ NoTracksCrash s f := by
  unfold Begun
  by_cases h : Ready s f
  · rw [work_ready h, ← refused_iff, ← crash_iff]
    have hc : f.hasTracks = true → crashes s f = false := by intro ht; unfold crashes; simp [ht]
    revert hc
    cases alt3dRefused s f <;> cases f.headFails <;> cases f.segmentFails <;> cases remuxes s f <;> cases crashes s f <;> cases f.hasTracks <;>
      cases f.mainTrack <;> cases f.keyframe <;> cases f.appendFails <;> cases f.writeFails <;> simp [h] <;>
      (by_cases hl : f.linked = 0 <;> simp [hl])
  · exact ⟨fun hc => absurd hc (work_not_ready h).2.2, fun hc => absurd hc.1.1 h⟩

/-- The codes of errors are negative: -19 of `CleanTracks` (1377), -32 of `LinkClusters` (468), -11 to -24 of the output. -/
structure Facts.Codes (f : Facts) : Prop where
  cleaned : f.cleaned ≤ 0
  linked : f.linked ≤ 0
  writeFails : ∀ c, f.writeFails = some c → c < 0

theorem fails_negative {s : Settings} {f : Facts} (hf : f.Codes) {c : Int} (h : work s f = .fails c) : c < 0 := by
  have h1 := hf.cleaned
  have h2 := hf.linked
  have h3 := hf.writeFails
  clear hf
  unfold work at h
  generalize newScale s.scale f.oldScale = sc at h
  generalize (checkHead f.head {}).1 = ok at h
  generalize f.writeFails = wf at h h3
  cases wf with
  | none => cases sc <;> grind (splits := 20)
  | some e => have := h3 e rfl; cases sc <;> grind (splits := 20)

/-- C181 as a whole: exit code 0 is a complete file. -/
def ExitCode : Prop := ∀ s facts bytes fs src dst, (∀ d, (facts d).Codes) → src ≠ dst → ∀ fs', run s facts bytes fs src dst = (fs', some 0) →
  ∃ x, fs.file src = some x ∧ work s (facts x.data) = .complete

/-- C181 (partial). Exit code 0 is a complete file unless mkclean quits. -/
theorem C181_exit_code_partial (s : Settings) (facts : List Nat → Facts) (bytes : List Nat → List Nat) (fs fs' : Fs) (src dst : Str)
    (hf : ∀ d, (facts d).Codes) (hne : src ≠ dst) (h : run s facts bytes fs src dst = (fs', some 0)) :
    ∃ x, fs.file src = some x ∧ fs'.file dst = some { data := bytes x.data } ∧
      (work s (facts x.data) = .complete ∨ work s (facts x.data) = .quits) := by
  unfold run at h
  cases hs : fs.file src with
  | none => rw [hs] at h; simp at h
  | some x =>
    rw [hs] at h
    simp only [] at h
    by_cases hd : dst = []
    · simp [hd] at h
    · simp only [hd, if_false] at h
      cases hc : fs.create dst with
      | none => rw [hc] at h; simp at h
      | some fs1 =>
        rw [hc] at h
        simp only [] at h
        have hx : fs1.file src = some x := by
          rw [← hs]
          unfold Fs.create at hc
          repeat' split at hc
          all_goals simp at hc
          all_goals rw [← hc]; simp [Fs.set, hne]
        rw [hx] at h
        simp only [Option.map_some, Option.getD_some] at h
        refine ⟨x, rfl, ?_⟩
        cases hw : work s (facts x.data) with
        | complete => rw [hw] at h; simp at h; rw [← h]; simp [Fs.set]
        | quits => rw [hw] at h; simp at h; rw [← h]; simp [Fs.set]
        | fails c =>
          rw [hw] at h
          simp at h
          have := fails_negative (hf _) hw
          omega
        | crash => rw [hw] at h; simp at h
        | hangs => rw [hw] at h; simp at h

/-- C181 fails: `--alt-3d 1` on a Matroska 2 file ends with exit code 0 and an empty file; so does `--remux` when no track
has a block; `--optimize_nv` on a file without Tracks, such as a file of chapters, crashes. -/
theorem C181_counterexample : ¬ ExitCode ∧
    work { alt3d := [1] } {} = .quits ∧ work { remux := true } { mainTrack := false } = .quits ∧
    work { optimize := true, optimizeVideo := false } { hasTracks := false, hasClusters := false } = .crash := by
  have h1 : work { alt3d := [1] } {} = .quits := by decide +kernel
  refine ⟨fun h => ?_, h1, by decide +kernel, by decide +kernel⟩
  obtain ⟨x, _, hx⟩ := h { alt3d := [1] } (fun _ => {}) (fun _ => [])
    { file := fun p => if p = lit "a" then some { data := [1] } else none } (lit "a") (lit "b")
    (fun _ => ⟨by decide, by decide, by simp⟩) (by decide) _ (by
      unfold run
      simp only [h1]
      rfl)
  rw [h1] at hx
  simp at hx

/-! ### The files -/

theorem create_other {fs fs1 : Fs} {p q : Str} (h : fs.create p = some fs1) (hq : q ≠ p) : fs1.file q = fs.file q := by
  unfold Fs.create at h
  repeat' split at h
  all_goals simp at h
  all_goals rw [← h]; simp [Fs.set, hq]

theorem set_other (fs : Fs) (p q : Str) (x : Option File) (hq : q ≠ p) : (fs.set p x).file q = fs.file q := by simp [Fs.set, hq]

theorem erase_other (fs : Fs) (p q : Str) (hq : q ≠ p) : (fs.erase p).file q = fs.file q := by
  unfold Fs.erase
  repeat' split
  all_goals simp [Fs.set, hq]

/-- C182. No other file than the output is changed, the source among them, however mkclean ends. -/
theorem C182_other_files (s : Settings) (facts : List Nat → Facts) (bytes : List Nat → List Nat) (fs : Fs) (src dst p : Str) (hp : p ≠ dst) :
    (run s facts bytes fs src dst).1.file p = fs.file p := by
  unfold run
  cases fs.file src with
  | none => rfl
  | some x =>
    simp only []
    by_cases hd : dst = []
    · simp [hd]
    · simp only [hd, if_false]
      cases hc : fs.create dst with
      | none => exact erase_other fs dst p hp
      | some fs1 =>
        simp only []
        have := create_other hc hp
        cases work s (facts ((fs1.file src).map File.data |>.getD [])) with
        | complete => simp only [set_other _ _ _ _ hp, this]
        | quits => simp only [set_other _ _ _ _ hp, this]
        | crash => simp only [set_other _ _ _ _ hp, this]
        | hangs => simp only [set_other _ _ _ _ hp, this]
        | fails c =>
          simp only []
          split
          · rw [erase_other _ _ _ hp, set_other _ _ _ _ hp, this]
          · rw [set_other _ _ _ _ hp, this]

theorem create_dir {fs fs1 : Fs} {p q : Str} (h : fs.create p = some fs1) : fs1.dirWritable q = fs.dirWritable q := by
  unfold Fs.create at h
  repeat' split at h
  all_goals simp at h
  all_goals rw [← h]; rfl

/-- C182. After an error that is found behind the opening of the source, there is no output, in a directory that may be
written to. -/
theorem C182_removed (s : Settings) (facts : List Nat → Facts) (bytes : List Nat → List Nat) (fs : Fs) (src dst : Str) (c : Int)
    (hd : dst ≠ []) (hw : fs.dirWritable dst = true) (hs : fs.file src ≠ none) (hc : c < 0)
    (h : (run s facts bytes fs src dst).2 = some c) : (run s facts bytes fs src dst).1.file dst = none := by
  unfold run at h ⊢
  cases hx : fs.file src with
  | none => exact absurd hx hs
  | some x =>
    rw [hx] at h
    simp only [hd, if_false] at h ⊢
    cases hcr : fs.create dst with
    | none => simp [Fs.erase, hw, Fs.set]
    | some fs1 =>
      rw [hcr] at h
      simp only [] at h ⊢
      cases hk : work s (facts ((fs1.file src).map File.data |>.getD [])) with
      | complete => rw [hk] at h; simp at h; omega
      | quits => rw [hk] at h; simp at h; omega
      | crash => rw [hk] at h; simp at h
      | hangs => rw [hk] at h; simp at h
      | fails e =>
        rw [hk] at h
        simp at h
        simp only []
        rw [if_pos (by omega)]
        have hw1 : fs1.dirWritable dst = true := by rw [create_dir hcr, hw]
        simp [Fs.erase, Fs.set, hw1]

/-- C182 as a whole: mkclean does not destroy its source, nor a file it may not write. -/
def KeepsFiles : Prop := ∀ s facts bytes fs src dst x,
  (fs.file src = some x → (run s facts bytes fs src dst).2 ≠ some 0 → (run s facts bytes fs src dst).1.file src = some x) ∧
  (fs.file dst = some x → x.writable = false → (run s facts bytes fs src dst).1.file dst = some x)

/-- C182 fails, whatever is in the files: with the same name for both, the source is removed (in a writable directory, if
an empty file has no EBML head), and an output that cannot be opened because it is read-only is removed. -/
theorem C182_counterexample (s : Settings) (facts : List Nat → Facts) (bytes : List Nat → List Nat) (fs : Fs) (src dst : Str) (x y : File)
    (he : (facts []).hasHead = false) (hs : fs.file src = some x) (hx : x.writable = true) (hd : fs.file dst = some y)
    (hy : y.writable = false) (hw : ∀ p, fs.dirWritable p = true) (h1 : src ≠ []) (h2 : dst ≠ []) :
    (run s facts bytes fs src src).2 = some (-4) ∧ (run s facts bytes fs src src).1.file src = none ∧
    (run s facts bytes fs src dst).2 = some (-3) ∧ (run s facts bytes fs src dst).1.file dst = none := by
  have e1 : (run s facts bytes fs src src).2 = some (-4) := by
    unfold run
    simp only [hs, h1, if_false, Fs.create, hx, if_true]
    simp [Fs.set, work, he]
  have e2 : (run s facts bytes fs src dst).2 = some (-3) := by
    unfold run
    simp only [hs, h2, if_false, Fs.create, hd, hy, Bool.false_eq_true]
  refine ⟨e1, C182_removed s facts bytes fs src src (-4) h1 (hw _) (by simp [hs]) (by decide) e1, e2, ?_⟩
  exact C182_removed s facts bytes fs src dst (-3) h2 (hw _) (by simp [hs]) (by decide) e2

theorem C182_not_kept : ¬ KeepsFiles := by
  intro h
  have hfs : ∃ fs : Fs, fs.file [97] = some { data := [1] } ∧ fs.file [98] = some { data := [2], writable := false } ∧
      ∀ p, fs.dirWritable p = true :=
    ⟨{ file := fun p => if p = [97] then some { data := [1] } else some { data := [2], writable := false } }, by simp, by simp, by simp⟩
  obtain ⟨fs, ha, hb, hw⟩ := hfs
  have key := C182_counterexample {} (fun _ => { hasHead := false }) id fs [97] [98] _ _ rfl ha rfl hb rfl hw (by simp) (by simp)
  have := (h {} (fun _ => { hasHead := false }) id fs [97] [98] { data := [2], writable := false }).2 hb rfl
  rw [key.2.2.2] at this
  simp at this

/-! ### Cases -/

example : start [lit "--Remux", lit "--doctype", lit "4", lit "--alt-3d", lit "12", lit "in.mkv", lit "out.webm"] =
    .run { remux := true, profile := pWebm, alt3d := [12], rest := [lit "in.mkv", lit "out.webm"] } (lit "in.mkv") (some (lit "out.webm")) := by
  decide +kernel
example : Written [.remux, .doctype 3, .alt3d [1, 2]] [lit "--Remux", lit "--doctype", lit "4", lit "--alt-3d", lit "12"] :=
  ⟨[lit "--Remux"], [lit "--doctype", lit "4", lit "--alt-3d", lit "12"], rfl, ⟨_, rfl, by unfold Word; decide +kernel⟩,
    [lit "--doctype", lit "4"], [lit "--alt-3d", lit "12"], rfl, ⟨_, rfl, by unfold Word; decide +kernel⟩,
    [lit "--alt-3d", lit "12"], [], rfl, ⟨_, rfl, by unfold Word; decide +kernel, by decide, by decide⟩, rfl⟩
example : Plain (lit "in.mkv") ∧ Plain (lit "-") ∧ ¬ Plain (lit "--in") := by unfold Plain; decide
example : newScale 0 1000 = .ok 128000 ∧ newScale 0 1000000 = .ok 1000000 := by decide +kernel
example : (checkHead mkvmergeHead {}).1 = true ∧ srcProfile (checkHead mkvmergeHead {}).2 = pV2 := by decide
example : work {} {} = .complete ∧ work { profile := pV3, alt3d := [1] } {} = .complete ∧ work {} { hasInfo := false } = .fails (-6) := by
  decide +kernel
example : Ready {} {} := ⟨rfl, by decide, rfl, ⟨1000000, by decide +kernel⟩, fun _ => rfl, fun _ => rfl⟩
example : (Facts.Codes {}) := ⟨by decide, by decide, by simp⟩

example : start [lit "--REMUX", lit "a.mkv", lit "b.mkv", lit "c.mkv"] = .run { remux := true, rest := [lit "a.mkv", lit "b.mkv", lit "c.mkv"] } (lit "a.mkv") (some (lit "c.mkv")) := by
  decide +kernel
example : start [lit "--Help", lit "--live", lit "a.mkv"] = .stop (-1) :=
  C177_help [] [.live] [] [lit "--live"] (lit "--Help") (lit "a.mkv") [] rfl ⟨_, [], rfl, ⟨_, rfl, by unfold Word; decide +kernel⟩, rfl⟩
    (.inl (by unfold Word; decide +kernel)) (by simp; unfold Plain; decide +kernel)
example : start [lit "--doctype", lit "8", lit "a.mkv"] = .stop (-8) :=
  C177_refused [] [] _ _ _ _ rfl (.inl ⟨by unfold Word; decide +kernel, by decide +kernel⟩)

end Verif.Setup
