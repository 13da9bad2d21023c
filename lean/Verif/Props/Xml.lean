import Verif.Core.Xml
/-!
C216, C217: what the XML writer of corec writes is read by an XML parser as what was written. The parser here is a small one for
elements, attributes in double quotes and the four entities.
-/
namespace Verif.Props.Xml
open Verif.Xml

/-! ### The part of XML that is used -/

/-- The text for which the content of an attribute or element stands; `<` and `"` must not occur, `&` only as the beginning of an entity. -/
def unescape : Text → Option Text
  | [] => some []
  | '&' :: 'a' :: 'm' :: 'p' :: ';' :: cs => (unescape cs).map ('&' :: ·)
  | '&' :: 'q' :: 'u' :: 'o' :: 't' :: ';' :: cs => (unescape cs).map ('"' :: ·)
  | '&' :: 'l' :: 't' :: ';' :: cs => (unescape cs).map ('<' :: ·)
  | '&' :: 'g' :: 't' :: ';' :: cs => (unescape cs).map ('>' :: ·)
  | c :: cs => if c = '&' ∨ c = '<' then none else (unescape cs).map (c :: ·)

def isSpace (c : Char) : Bool := c = ' ' || c = '\n' || c = '\t' || c = '\r'
def isNameChar (c : Char) : Bool := c.isAlphanum || c = '_' || c = '-' || c = '.' || c = ':'

/-- Attributes, each behind a space. -/
def parseAttrs : Nat → Text → Option (List (Text × Text) × Text)
  | 0, _ => none
  | fuel + 1, s =>
    match s with
    | ' ' :: s =>
      match s.dropWhile isNameChar with
      | '=' :: '"' :: v =>
        match v.dropWhile (· ≠ '"') with
        | '"' :: r =>
          (unescape (v.takeWhile (· ≠ '"'))).bind fun value =>
          (parseAttrs fuel r).map fun x => ((s.takeWhile isNameChar, value) :: x.1, x.2)
        | _ => none
      | _ => none
    | s => some ([], s)

/-- The name and the `>` of an end tag, of which `</` was read. -/
def parseClose (name s : Text) : Option Text :=
  if s.takeWhile isNameChar = name then
    match s.dropWhile isNameChar with
    | '>' :: r => some r
    | _ => none
  else none

/-- The name of an element is not empty. -/
def nonEmpty (name : Text) : Option Text := if name = [] then none else some name

mutual
/-- An element, of which `<` was read. -/
def parseBody : Nat → Text → Option (Tree × Text)
  | 0, _ => none
  | fuel + 1, s =>
    (nonEmpty (s.takeWhile isNameChar)).bind fun name =>
    (parseAttrs (s.length + 1) (s.dropWhile isNameChar)).bind fun a =>
    match a.2 with
    | '/' :: '>' :: r => some (.node name a.1 [] .nil, r)
    | '>' :: r =>
      match r.dropWhile (· ≠ '<') with
      | '<' :: '/' :: e =>
        (unescape (r.takeWhile (· ≠ '<'))).bind fun data =>
        (parseClose name e).map fun e => (.node name a.1 data .nil, e)
      | _ =>
        (parseForest fuel r).bind fun k =>
        match k.2 with
        | '<' :: '/' :: e => (parseClose name e).map fun e => (.node name a.1 [] k.1, e)
        | _ => none
    | _ => none
/-- Elements up to an end tag, with space between. -/
def parseForest : Nat → Text → Option (Forest × Text)
  | 0, _ => none
  | fuel + 1, s =>
    match s.dropWhile isSpace with
    | '<' :: '/' :: e => some (.nil, '<' :: '/' :: e)
    | '<' :: s =>
      (parseBody fuel s).bind fun t =>
      (parseForest fuel t.2).map fun k => (.cons t.1 k.1, k.2)
    | _ => none
end

/-- A document: the XML declaration and one element. -/
def parseDoc (fuel : Nat) (s : Text) : Option Tree :=
  let decl := "<?xml version=\"1.0\" encoding=\"utf-8\"?>".toList
  if s.take decl.length = decl then
    match (s.drop decl.length).dropWhile isSpace with
    | '<' :: s =>
      match parseBody fuel s with
      | some (t, r) => if r.all isSpace then some t else none
      | none => none
    | _ => none
  else none

/-! ### What a document must be like -/

/-- A name: not empty, of the characters of names. -/
def IsName (n : Text) : Prop := n ≠ [] ∧ ∀ c ∈ n, isNameChar c = true

/-- The length of a text as an attribute. -/
def escLen (v : Text) : Nat := (v.map fun c => if c = '&' then 5 else if c = '"' then 6 else if c = '<' ∨ c = '>' then 4 else 1).sum

/-- The attributes are named and fit into their buffer and into a line. -/
def AttrsFit (cap : Nat) (as : List (Text × Text)) : Prop :=
  ∀ a ∈ as, IsName a.1 ∧ escLen a.2 < cap ∧ a.1.length + escLen a.2 + 4 < maxLine

mutual
/-- An element at depth `deep`: names are names, every line fits, an element has text or children, and the text has no `<` and `&`. -/
def TreeFits (cap deep : Nat) : Tree → Prop
  | .node name as data kids =>
    IsName name ∧ AttrsFit cap as ∧ deep + name.length + 3 < maxLine ∧ data.length + name.length + 5 < maxLine ∧
    (∀ c ∈ data, c ≠ '<' ∧ c ≠ '&') ∧ (data = [] ∨ kids = .nil) ∧ ForestFits cap (deep + 2) kids
def ForestFits (cap deep : Nat) : Forest → Prop
  | .nil => True
  | .cons t f => TreeFits cap deep t ∧ ForestFits cap deep f
end

mutual
/-- The number of elements. -/
def treeSize : Tree → Nat
  | .node _ _ _ kids => forestSize kids + 1
def forestSize : Forest → Nat
  | .nil => 1
  | .cons t f => treeSize t + forestSize f + 1
end

/-! ### Attributes -/

theorem entity_length (c : Char) : (entity c).length = if c = '&' then 5 else if c = '"' then 6 else if c = '<' ∨ c = '>' then 4 else 1 := by
  unfold entity
  split
  · rfl
  · rfl
  · rfl
  · rfl
  · rename_i h1 h2 h3 h4
    have e1 : c ≠ '&' := fun e => h1 e
    have e2 : c ≠ '"' := fun e => h2 e
    have e3 : c ≠ '<' := fun e => h3 e
    have e4 : c ≠ '>' := fun e => h4 e
    simp [e1, e2, e3, e4]

theorem escape_fits : ∀ (v : Text) (room : Nat), escLen v ≤ room → escape room v = v.flatMap entity
  | [], _, _ => by simp [escape]
  | c :: cs, room, h => by
    have hl := entity_length c
    have hp : 0 < (entity c).length := by rw [hl]; (repeat' split) <;> omega
    simp only [escLen, List.map_cons, List.sum_cons, ← hl] at h
    rw [escape, if_neg (by omega), List.take_of_length_le (by omega), List.flatMap_cons,
      escape_fits cs _ (by simp only [escLen]; omega)]

theorem unescape_entity (c : Char) (cs : Text) : unescape (entity c ++ cs) = (unescape cs).map (c :: ·) := by
  unfold entity
  split
  · simp [unescape]
  · simp [unescape]
  · simp [unescape]
  · simp [unescape]
  · rename_i h1 _ h3 _
    have e1 : c ≠ '&' := fun e => h1 e
    have e3 : c ≠ '<' := fun e => h3 e
    rw [List.singleton_append, unescape]
    · simp [e1, e3]
    all_goals (intros; simp_all)

theorem unescape_escaped (v : Text) : unescape (v.flatMap entity) = some v := by
  induction v with
  | nil => simp [unescape]
  | cons c cs ih => rw [List.flatMap_cons, unescape_entity, ih]; rfl

theorem unescape_plain (v : Text) (h : ∀ c ∈ v, c ≠ '<' ∧ c ≠ '&') : unescape v = some v := by
  induction v with
  | nil => simp [unescape]
  | cons c cs ih =>
    have hc := h c (by simp)
    rw [unescape]
    · simp [hc, ih fun d hd => h d (by simp [hd])]
    all_goals (intros; simp_all)

theorem entity_clean (c : Char) : ∀ d ∈ entity c, d ≠ '"' ∧ d ≠ '<' ∧ d ≠ '>' := by
  unfold entity
  split
  · decide
  · decide
  · decide
  · decide
  · rename_i h1 h2 h3 h4
    intro d hd
    rw [List.mem_singleton] at hd
    subst hd
    exact ⟨fun e => h2 e, fun e => h3 e, fun e => h4 e⟩

/-- **C216**: the text written for an attribute ends at its quote, has no markup, and stands for the value given, whatever the value is, as
long as it fits. -/
theorem C216_attribute_partial (cap : Nat) (name v : Text) (hb : escLen v < cap) (hl : name.length + escLen v + 4 < maxLine) :
    ∃ e : Text, attrib cap false name v = ' ' :: name ++ ['=', '"'] ++ e ++ ['"'] ∧
      (∀ c ∈ e, c ≠ '"' ∧ c ≠ '<' ∧ c ≠ '>') ∧ unescape e = some v := by
  refine ⟨v.flatMap entity, ?_, ?_, unescape_escaped v⟩
  · have hlen : (v.flatMap entity).length = escLen v := by
      rw [List.length_flatMap, escLen]
      congr 1
      exact List.map_congr_left fun c _ => entity_length c
    simp only [attrib, Bool.false_and, Bool.false_eq_true, if_false]
    rw [escape_fits v _ (by omega), line, List.take_of_length_le]
    simp only [List.length_append, List.length_cons, List.length_nil, hlen]
    omega
  · intro c hc
    obtain ⟨d, _, hd⟩ := List.mem_flatMap.1 hc
    exact entity_clean d c hd

/-- Whatever the value is, its text stays in the buffer and has no markup. -/
theorem C216_inside (room : Nat) (v : Text) : (escape room v).length ≤ room ∧ ∀ c ∈ escape room v, c ≠ '"' ∧ c ≠ '<' ∧ c ≠ '>' := by
  induction v generalizing room with
  | nil => simp [escape]
  | cons c cs ih =>
    rw [escape]
    split
    · simp
    · have hi := ih (room - (entity c).length)
      refine ⟨?_, ?_⟩
      · simp only [List.length_append, List.length_take]; omega
      · intro d hd
        rcases List.mem_append.1 hd with hd | hd
        · exact entity_clean c d (List.mem_of_mem_take hd)
        · exact hi.2 d hd

/-- Every value can be read back. -/
def AttributesReadBack : Prop := ∀ (cap : Nat) (name v : Text), 64 ≤ cap → IsName name →
  ∃ e : Text, attrib cap false name v = ' ' :: name ++ ['=', '"'] ++ e ++ ['"'] ∧ unescape e = some v

/-- A value longer than a line loses its quote. -/
theorem C216_quote_lost (cap : Nat) (name v : Text) (h : maxLine ≤ name.length + (escape (cap - 1) v).length + 4)
    (hn : name.length + 3 < maxLine) :
    attrib cap false name v = (' ' :: name ++ ['=', '"'] ++ escape (cap - 1) v).take (maxLine - 1) := by
  simp only [attrib, Bool.false_and, Bool.false_eq_true, if_false, line]
  rw [List.take_append_of_le_length]
  simp only [List.length_append, List.length_cons, List.length_nil]
  omega

theorem escape_plain (v : Text) (room : Nat) (h : ∀ c ∈ v, entity c = [c]) : escape room v = v.take room := by
  induction v generalizing room with
  | nil => simp [escape]
  | cons c cs ih =>
    rw [escape]
    split
    · simp [*]
    · rename_i hr
      obtain ⟨r, rfl⟩ := Nat.exists_eq_succ_of_ne_zero hr
      rw [h c (by simp), ih _ fun d hd => h d (by simp [hd])]
      simp

/-- **C216 counterexample**: a value of 2000 letters has no quote at its end. -/
theorem C216_counterexample : ¬ AttributesReadBack := by
  intro h
  obtain ⟨n, hn1, hn2⟩ : ∃ n : Nat, 2000 ≤ n ∧ n ≤ 2000 := ⟨2000, Nat.le_refl _, Nat.le_refl _⟩
  obtain ⟨m, hm1⟩ : ∃ m : Nat, m = maxLine - 1 := ⟨_, rfl⟩
  have hm2 : m = 1023 := hm1
  obtain ⟨e, he, _⟩ := h 4160 ['a'] (List.replicate n 'x') (by decide) ⟨by simp, by decide⟩
  have hp : escape (4160 - 1) (List.replicate n 'x') = List.replicate n 'x' := by
    rw [escape_plain _ _ (by intro c hc; rw [List.eq_of_mem_replicate hc]; rfl), List.take_of_length_le (by simp; omega)]
  rw [C216_quote_lost _ _ _ (by rw [hp]; simp only [List.length_replicate, List.length_cons, List.length_nil]; omega)
    (by simp only [List.length_cons, List.length_nil]; omega), hp, ← hm1] at he
  have hq : '"' ∈ List.drop 4 (List.take m (' ' :: ['a'] ++ ['=', '"'] ++ List.replicate n 'x')) := by
    rw [he]; simp
  rw [List.drop_take] at hq
  have := List.mem_of_mem_take hq
  simp at this

/-- A value that is cut at the end of the buffer ends in the middle of an entity. -/
theorem C216_cut_entity (n : Nat) : escape (n + 2) (List.replicate n 'x' ++ ['&']) = List.replicate n 'x' ++ ['&', 'a'] ∧
    unescape (List.replicate n 'x' ++ ['&', 'a']) = none := by
  induction n with
  | zero => exact ⟨by decide, by decide⟩
  | succ n ih =>
    have hx : entity 'x' = ['x'] := by decide
    simp only [List.replicate_succ, List.cons_append]
    refine ⟨?_, ?_⟩
    · rw [escape, if_neg (by omega), hx, List.take_of_length_le (by simp)]
      simp [ih.1]
    · rw [unescape]
      · simp [ih.2]
      all_goals (intros; simp_all)

example : ∃ e, attrib 320 false "title".toList "Tom & \"Jerry\" <1>".toList = ' ' :: "title".toList ++ ['=', '"'] ++ e ++ ['"'] ∧
    unescape e = some "Tom & \"Jerry\" <1>".toList := by
  obtain ⟨e, h1, _, h2⟩ := C216_attribute_partial 320 "title".toList "Tom & \"Jerry\" <1>".toList (by decide) (by decide)
  exact ⟨e, h1, h2⟩

/-! ### Documents -/

theorem span_name {n : Text} (hn : ∀ c ∈ n, isNameChar c = true) {c : Char} {r : Text} (hc : isNameChar c = false) :
    (n ++ c :: r).takeWhile isNameChar = n ∧ (n ++ c :: r).dropWhile isNameChar = c :: r := by
  induction n with
  | nil => simp [hc]
  | cons d ds ih =>
    have := ih fun c h => hn c (by simp [h])
    simp [hn d (by simp), this]

theorem span_until {n : Text} {q : Char} (hn : ∀ c ∈ n, c ≠ q) (r : Text) :
    (n ++ q :: r).takeWhile (· ≠ q) = n ∧ (n ++ q :: r).dropWhile (· ≠ q) = q :: r := by
  induction n with
  | nil => simp
  | cons d ds ih =>
    have := ih fun c h => hn c (by simp [h])
    have hd := hn d (by simp)
    simp only [List.cons_append, List.takeWhile_cons, List.dropWhile_cons, hd, ne_eq, not_false_eq_true, decide_true, if_true]
    exact ⟨by rw [this.1], this.2⟩

theorem skip_space {n : Text} (hn : ∀ c ∈ n, isSpace c = true) {c : Char} {r : Text} (hc : isSpace c = false) :
    (n ++ c :: r).dropWhile isSpace = c :: r := by
  induction n with
  | nil => simp [hc]
  | cons d ds ih => simp [hn d (by simp), ih fun c h => hn c (by simp [h])]

theorem parseAttrs_write (cap : Nat) (as : List (Text × Text)) (h : AttrsFit cap as) (c : Char) (r : Text) (hc : c ≠ ' ') :
    ∀ fuel, as.length < fuel → parseAttrs fuel (writeAttrs cap as ++ c :: r) = some (as, c :: r) := by
  induction as with
  | nil =>
    intro fuel hf
    obtain ⟨f, rfl⟩ : ∃ f, fuel = f + 1 := ⟨fuel - 1, by simp at hf; omega⟩
    simp only [writeAttrs, List.flatMap_nil, List.nil_append, parseAttrs]
    split
    · rename_i e; simp only [List.cons.injEq] at e; exact absurd e.1 hc
    · rfl
  | cons a as ih =>
    intro fuel hf
    obtain ⟨f, rfl⟩ : ∃ f, fuel = f + 1 := ⟨fuel - 1, by simp at hf; omega⟩
    obtain ⟨hn, hb, hl⟩ := h a (by simp)
    obtain ⟨e, he, hcl, hu⟩ := C216_attribute_partial cap a.1 a.2 hb hl
    have ih := ih (fun x hx => h x (by simp [hx])) f (by simp at hf; omega)
    simp only [writeAttrs] at ih
    simp only [writeAttrs, List.flatMap_cons, he, List.append_assoc, List.cons_append, List.nil_append, parseAttrs]
    have s1 := span_name hn.2 (c := '=') (r := '"' :: (e ++ '"' :: (List.flatMap (fun a => attrib cap false a.1 a.2) as ++ c :: r))) (by decide)
    have s2 := span_until (fun c hc => (hcl c hc).1) (q := '"') (List.flatMap (fun a => attrib cap false a.1 a.2) as ++ c :: r)
    rw [s1.2, s1.1]
    simp only
    rw [s2.2, s2.1]
    simp only [hu, Option.bind_some, ih, Option.map_some]

theorem parseClose_name {n : Text} (hn : IsName n) (r : Text) : parseClose n (n ++ '>' :: r) = some r := by
  have s1 := span_name hn.2 (c := '>') (r := r) (by decide)
  rw [parseClose, s1.1, s1.2]
  simp

theorem length_writeAttrs (cap : Nat) (as : List (Text × Text)) : as.length ≤ (writeAttrs cap as).length := by
  induction as with
  | nil => simp
  | cons a as ih =>
    simp only [writeAttrs, List.flatMap_cons, List.length_append, List.length_cons] at *
    have : 1 ≤ (attrib cap false a.1 a.2).length := by
      simp only [attrib, Bool.false_and, Bool.false_eq_true, if_false, line, List.length_take, List.length_append, List.length_cons, maxLine]
      omega
    omega

/-- What is behind the `<` of an element whose writer is `w`. -/
def body (cap : Nat) (w : W) (as : List (Text × Text)) (data : Text) (kids : Forest) : Text :=
  w.element ++ writeAttrs cap as ++ (writeForest cap w kids).2 ++ finish (writeForest cap w kids).1 data

/-- The writer of an element that has just begun, outside of text. -/
def fresh (safe : Bool) (name : Text) (deep : Nat) : W := ⟨safe, name, deep, false, false⟩

/-- The same with children. -/
def parent (safe : Bool) (name : Text) (deep : Nat) : W := ⟨safe, name, deep, true, false⟩

theorem line_fits {t : Text} (h : t.length < maxLine) : line t = t := by
  rw [line, List.take_of_length_le (by omega)]

theorem pad_length (w : Nat) (h : 0 < w) : (pad w).length = w := by simp [pad]; omega

theorem writeTree_parent (cap : Nat) (safe : Bool) (pn : Text) (deep : Nat) (hd : 0 < deep) (name : Text) (as : List (Text × Text))
    (data : Text) (kids : Forest) (h : deep + 2 + name.length + 3 < maxLine) :
    writeTree cap (parent safe pn deep) (.node name as data kids) =
      (parent safe pn deep, List.replicate (deep + 1) ' ' ++ '<' :: body cap (fresh safe name (deep + 2)) as data kids) := by
  have hne : (deep == 0) = false := by simp; omega
  simp only [writeTree, beginElement, parent, if_true, hne, Bool.false_eq_true, if_false, ne_eq, show deep ≠ 0 from by omega,
    not_false_eq_true, fresh, body, Prod.mk.injEq, true_and]
  rw [line_fits (by simp [maxLine]), line_fits (by rw [List.length_append, pad_length _ (by omega)]; omega)]
  simp [pad, List.append_assoc]

theorem writeForest_parent (cap : Nat) (safe : Bool) (pn : Text) (deep : Nat) (hd : 0 < deep) : ∀ (f : Forest), ForestFits cap (deep + 2) f →
    (writeForest cap (parent safe pn deep) f).1 = parent safe pn deep
  | .nil, _ => rfl
  | .cons (.node name as data kids) f, h => by
    simp only [ForestFits, TreeFits] at h
    simp only [writeForest]
    rw [writeTree_parent cap safe pn deep hd name as data kids h.1.2.2.1]
    exact writeForest_parent cap safe pn deep hd f h.2

theorem writeForest_fresh (cap : Nat) (safe : Bool) (pn : Text) (deep : Nat) (hd : 0 < deep) (t : Tree) (f : Forest)
    (h : ForestFits cap (deep + 2) (.cons t f)) :
    writeForest cap (fresh safe pn deep) (.cons t f) =
      (parent safe pn deep, ['>', '\n'] ++ (writeForest cap (parent safe pn deep) (.cons t f)).2) := by
  have hp := writeForest_parent cap safe pn deep hd (.cons t f) h
  cases t with
  | node name as data kids =>
    have hw : writeTree cap (fresh safe pn deep) (.node name as data kids) =
        (parent safe pn deep, ['>', '\n'] ++ (writeTree cap (parent safe pn deep) (.node name as data kids)).2) := by
      simp only [writeTree, beginElement, parent, fresh, if_true, Bool.false_eq_true, if_false, Prod.mk.injEq, true_and]
      rw [line_fits (t := []) (by simp [maxLine]), line_fits (t := ['>', '\n']) (by simp [maxLine])]
      simp
    have hw' : (writeTree cap (parent safe pn deep) (.node name as data kids)).1 = parent safe pn deep := rfl
    simp only [writeForest, hw, hw'] at *
    simp [hp]

mutual
theorem parseBody_write (cap : Nat) (safe : Bool) (deep : Nat) (hd : 0 < deep) : ∀ (t : Tree), TreeFits cap deep t →
    ∀ (fuel : Nat), treeSize t ≤ fuel → ∀ (r : Text),
    match t with
    | .node name as data kids => parseBody fuel (body cap (fresh safe name deep) as data kids ++ r) = some (t, '\n' :: r)
  | .node name as data kids, h, fuel, hf, r => by
    simp only [TreeFits] at h
    obtain ⟨hn, ha, hl, hdl, hdc, hor, hk⟩ := h
    simp only [treeSize] at hf
    obtain ⟨f, rfl⟩ : ∃ f, fuel = f + 1 := ⟨fuel - 1, by omega⟩
    -- what is behind the attributes begins with a character that is no space
    have key : ∀ (c : Char) (q : Text), isNameChar c = false → c ≠ ' ' →
        (name ++ (writeAttrs cap as ++ c :: q)).takeWhile isNameChar = name ∧
        parseAttrs ((name ++ (writeAttrs cap as ++ c :: q)).length + 1) ((name ++ (writeAttrs cap as ++ c :: q)).dropWhile isNameChar) =
          some (as, c :: q) := by
      intro c q hc hsp
      have hfuel : as.length < (name ++ (writeAttrs cap as ++ c :: q)).length + 1 := by
        have := length_writeAttrs cap as
        simp only [List.length_append]; omega
      have hpa := parseAttrs_write cap as ha c q hsp _ hfuel
      cases has : as with
      | nil =>
        subst has
        simp only [writeAttrs, List.flatMap_nil, List.nil_append] at hpa ⊢
        have s1 := span_name hn.2 (c := c) (r := q) hc
        rw [s1.1, s1.2]
        exact ⟨rfl, hpa⟩
      | cons a as' =>
        rw [← has]
        have : ∃ q', writeAttrs cap as ++ c :: q = ' ' :: q' := by
          rw [has]
          simp only [writeAttrs, List.flatMap_cons, attrib, Bool.false_and, Bool.false_eq_true, if_false, line, maxLine, List.cons_append,
            List.take_succ_cons, Nat.reduceSub]
          exact ⟨_, rfl⟩
        obtain ⟨q', hq'⟩ := this
        rw [hq'] at hpa ⊢
        have s1 := span_name hn.2 (c := ' ') (r := q') (by decide)
        rw [s1.1, s1.2]
        exact ⟨rfl, hpa⟩
    have hne : nonEmpty name = some name := by simp [nonEmpty, hn.1]
    cases kids with
    | nil =>
      simp only [body, writeForest, List.append_nil]
      by_cases hdata : data = []
      · subst hdata
        cases safe with
        | false =>
          have e : finish (fresh false name deep) [] = '/' :: '>' :: ['\n'] := by
            simp [finish, endElement, fresh, line, maxLine]
          have hw : (fresh false name deep).element = name := rfl
          rw [e, hw]
          simp only [List.append_assoc, List.cons_append, List.nil_append]
          obtain ⟨k1, k2⟩ := key '/' ('>' :: '\n' :: r) (by decide) (by decide)
          simp only [parseBody, k1, hne, Option.bind_some, k2]
        | true =>
          have e : finish (fresh true name deep) [] = '>' :: '<' :: '/' :: (name ++ '>' :: ['\n']) := by
            simp only [finish, endElement, fresh, if_true, Bool.false_eq_true, if_false]
            rw [line_fits (by simp; omega)]
            simp
          have hw : (fresh true name deep).element = name := rfl
          rw [e, hw]
          simp only [List.append_assoc, List.cons_append, List.nil_append]
          obtain ⟨k1, k2⟩ := key '>' ('<' :: '/' :: (name ++ '>' :: '\n' :: r)) (by decide) (by decide)
          simp only [parseBody, k1, hne, Option.bind_some, k2]
          simp [unescape, parseClose_name hn]
      · have e : finish (fresh safe name deep) data = '>' :: (data ++ '<' :: '/' :: (name ++ '>' :: ['\n'])) := by
          simp only [finish, hdata, if_false, endData, fresh, Bool.false_eq_true]
          rw [line_fits (by simp; omega)]
          simp
        have hw : (fresh safe name deep).element = name := rfl
        rw [e, hw]
        simp only [List.append_assoc, List.cons_append, List.nil_append]
        obtain ⟨k1, k2⟩ := key '>' (data ++ '<' :: '/' :: (name ++ '>' :: '\n' :: r)) (by decide) (by decide)
        have s := span_until (fun c hc => (hdc c hc).1) (q := '<') ('/' :: (name ++ '>' :: '\n' :: r))
        simp only [parseBody, k1, hne, Option.bind_some, k2]
        rw [s.2, s.1]
        simp only [unescape_plain data hdc, Option.bind_some, parseClose_name hn, Option.map_some]
    | cons t fs =>
      have hdata : data = [] := by
        rcases hor with h | h
        · exact h
        · simp at h
      subst hdata
      have hfo := writeForest_fresh cap safe name deep hd t fs hk
      have hfe : finish (parent safe name deep) [] = List.replicate (deep - 1) ' ' ++ '<' :: '/' :: (name ++ '>' :: ['\n']) := by
        simp only [finish, if_true, endElement, parent, Bool.false_eq_true, if_false]
        rw [line_fits (by simp only [List.length_append, pad_length _ hd, List.length_cons, List.length_nil]; omega)]
        simp [pad]
      have hw : (fresh safe name deep).element = name := rfl
      simp only [body, hfo, hfe, hw, List.append_assoc, List.cons_append, List.nil_append]
      obtain ⟨k1, k2⟩ := key '>' ('\n' :: ((writeForest cap (parent safe name deep) (.cons t fs)).2 ++ (List.replicate (deep - 1) ' ' ++
        '<' :: '/' :: (name ++ '>' :: '\n' :: r)))) (by decide) (by decide)
      have hpf := parseForest_write cap safe deep hd name (.cons t fs) hk f (by omega) ['\n'] (by decide)
        (List.replicate (deep - 1) ' ') (by intro c hc; rw [List.eq_of_mem_replicate hc]; rfl) (name ++ '>' :: '\n' :: r)
      -- behind `>` comes space and a `<` that does not end the element
      have hfirst : ∃ q, (writeForest cap (parent safe name deep) (.cons t fs)).2 = List.replicate (deep + 1) ' ' ++ '<' :: q ∧
          ∃ c q', q = c :: q' ∧ c ≠ '/' := by
        cases t with
        | node n2 as2 d2 ks2 =>
          have hk' := hk
          simp only [ForestFits, TreeFits] at hk'
          simp only [writeForest]
          rw [writeTree_parent cap safe name deep hd n2 as2 d2 ks2 hk'.1.2.2.1]
          refine ⟨body cap (fresh safe n2 (deep + 2)) as2 d2 ks2 ++ (writeForest cap (parent safe name deep) fs).2, by simp, ?_⟩
          obtain ⟨c, cs, hcs⟩ := List.exists_cons_of_ne_nil hk'.1.1.1
          refine ⟨c, _, by simp only [body, fresh, hcs, List.cons_append]; rfl, ?_⟩
          intro e
          have := hk'.1.1.2 c (by simp [hcs])
          rw [e] at this
          exact absurd this (by decide)
      obtain ⟨q, hq, c, q', hqq, hcne⟩ := hfirst
      have s := span_until (n := '\n' :: List.replicate (deep + 1) ' ') (q := '<')
        (by
          intro c hc
          rcases List.mem_cons.1 hc with rfl | hc
          · decide
          · rw [List.eq_of_mem_replicate hc]; decide)
        (q ++ (List.replicate (deep - 1) ' ' ++ '<' :: '/' :: (name ++ '>' :: '\n' :: r)))
      simp only [parseBody, k1, hne, Option.bind_some, k2]
      have hdrop : List.dropWhile (fun x => decide (x ≠ '<')) ('\n' :: ((writeForest cap (parent safe name deep) (.cons t fs)).2 ++
          (List.replicate (deep - 1) ' ' ++ '<' :: '/' :: (name ++ '>' :: '\n' :: r)))) =
          '<' :: c :: (q' ++ (List.replicate (deep - 1) ' ' ++ '<' :: '/' :: (name ++ '>' :: '\n' :: r))) := by
        have := s.2
        rw [hqq] at this hq
        simp only [hq, List.append_assoc, List.cons_append] at this ⊢
        exact this
      rw [hdrop]
      simp only [List.cons_append, List.nil_append] at hpf
      split
      · rename_i e; simp only [List.cons.injEq] at e; exact absurd e.2.1 hcne
      · rw [hpf]
        simp only [Option.bind_some, parseClose_name hn, Option.map_some]
theorem parseForest_write (cap : Nat) (safe : Bool) (deep : Nat) (hd : 0 < deep) (pn : Text) : ∀ (f : Forest), ForestFits cap (deep + 2) f →
    ∀ (fuel : Nat), forestSize f ≤ fuel → ∀ (s1 : Text), (∀ c ∈ s1, isSpace c = true) → ∀ (s2 : Text), (∀ c ∈ s2, isSpace c = true) →
    ∀ (r : Text), parseForest fuel (s1 ++ ((writeForest cap (parent safe pn deep) f).2 ++ (s2 ++ '<' :: '/' :: r))) =
      some (f, '<' :: '/' :: r)
  | .nil, _, fuel, hf, s1, h1, s2, h2, r => by
    simp only [forestSize] at hf
    obtain ⟨n, rfl⟩ : ∃ n, fuel = n + 1 := ⟨fuel - 1, by omega⟩
    have : (s1 ++ (s2 ++ '<' :: '/' :: r)).dropWhile isSpace = '<' :: '/' :: r := by
      rw [← List.append_assoc]
      exact skip_space (by
        intro c hc
        rcases List.mem_append.1 hc with h | h
        · exact h1 c h
        · exact h2 c h) (by decide)
    simp only [writeForest, List.nil_append, parseForest, this]
  | .cons (.node name as data kids) f, h, fuel, hf, s1, h1, s2, h2, r => by
    simp only [forestSize] at hf
    obtain ⟨n, rfl⟩ : ∃ n, fuel = n + 1 := ⟨fuel - 1, by omega⟩
    have h' := h
    simp only [ForestFits] at h
    simp only [ForestFits, TreeFits] at h'
    simp only [writeForest]
    rw [writeTree_parent cap safe pn deep hd name as data kids h'.1.2.2.1]
    have hb := parseBody_write cap safe (deep + 2) (by omega) (.node name as data kids) h.1 n (by omega)
      ((writeForest cap (parent safe pn deep) f).2 ++ (s2 ++ '<' :: '/' :: r))
    have hr := parseForest_write cap safe deep hd pn f h.2 n (by omega) ['\n'] (by decide) s2 h2 r
    simp only at hb
    simp only [List.append_assoc, List.cons_append]
    have hs : (s1 ++ (List.replicate (deep + 1) ' ' ++ '<' :: (body cap (fresh safe name (deep + 2)) as data kids ++
        ((writeForest cap (parent safe pn deep) f).2 ++ (s2 ++ '<' :: '/' :: r))))).dropWhile isSpace =
        '<' :: (body cap (fresh safe name (deep + 2)) as data kids ++ ((writeForest cap (parent safe pn deep) f).2 ++ (s2 ++ '<' :: '/' :: r))) := by
      rw [← List.append_assoc]
      exact skip_space (by
        intro c hc
        rcases List.mem_append.1 hc with h | h
        · exact h1 c h
        · rw [List.eq_of_mem_replicate h]; rfl) (by decide)
    simp only [parseForest]
    rw [hs]
    obtain ⟨c, cs, hcs⟩ := List.exists_cons_of_ne_nil h'.1.1.1
    have hcne : c ≠ '/' := by
      intro e
      have := h'.1.1.2 c (by simp [hcs])
      rw [e] at this
      exact absurd this (by decide)
    have hbc : ∃ q, body cap (fresh safe name (deep + 2)) as data kids = c :: q := by
      refine ⟨_, by simp only [body, fresh, hcs, List.cons_append]; rfl⟩
    obtain ⟨q, hq⟩ := hbc
    rw [hq] at hb ⊢
    simp only [List.cons_append] at hb ⊢
    split
    · rename_i e; simp only [List.cons.injEq] at e; exact absurd e.2.1 hcne
    · rename_i _ e
      simp only [List.cons.injEq, true_and] at e
      rw [← e, hb]
      simp only [List.cons_append, List.nil_append] at hr
      simp only [Option.bind_some, hr, Option.map_some]
    · rename_i h1 h2
      exact absurd rfl (h2 _)
end

/-- **C217**: a document written element by element is read by an XML parser as the same elements with the same attributes and texts, for
every tree, as long as the lines fit and the texts of elements are without `<` and `&`. -/
theorem C217_document_partial (cap : Nat) (safe : Bool) (t : Tree) (h : TreeFits cap 1 t)
    (hroot : ∀ name as data kids, t = .node name as data kids → name.length + 41 < maxLine) (fuel : Nat) (hf : treeSize t ≤ fuel) :
    parseDoc fuel (writeDoc cap safe t) = some t := by
  cases t with
  | node name as data kids =>
    have hb := parseBody_write cap safe 1 (by omega) (.node name as data kids) h fuel hf []
    simp only [List.append_nil] at hb
    have hx : writeDoc cap safe (.node name as data kids) =
        "<?xml version=\"1.0\" encoding=\"utf-8\"?>".toList ++ ('\n' :: '<' :: body cap (fresh safe name 1) as data kids) := by
      have hr := hroot name as data kids rfl
      simp only [writeDoc, xml]
      rw [line_fits (by
        have : ("<?xml version=\"1.0\" encoding=\"utf-8\"?>\n<".toList).length = 40 := by decide
        rw [List.length_append, this]; omega)]
      have hs : "<?xml version=\"1.0\" encoding=\"utf-8\"?>\n<".toList = "<?xml version=\"1.0\" encoding=\"utf-8\"?>".toList ++ ['\n', '<'] := by decide
      rw [hs]
      simp [body, fresh]
    rw [hx]
    simp only [parseDoc, List.take_left, List.drop_left, if_true]
    have hsp : ('\n' :: '<' :: body cap (fresh safe name 1) as data kids).dropWhile isSpace = '<' :: body cap (fresh safe name 1) as data kids := by
      rw [List.dropWhile_cons, if_pos (by decide), List.dropWhile_cons, if_neg (by decide)]
    rw [hsp]
    simp only [hb]
    rfl

/-- Every document is read back. -/
def DocumentsReadBack : Prop := ∀ (cap : Nat) (safe : Bool) (name data : Text), 64 ≤ cap → IsName name →
  ∃ fuel, parseDoc fuel (writeDoc cap safe (.node name [] data .nil)) = some (.node name [] data .nil)

theorem written_amp (safe : Bool) : writeDoc 64 safe (.node ['a'] [] ['&'] .nil) =
    "<?xml version=\"1.0\" encoding=\"utf-8\"?>".toList ++ '\n' :: '<' :: ['a', '>', '&', '<', '/', 'a', '>', '\n'] := by
  simp [writeDoc, xml, line, maxLine, writeForest, writeAttrs, finish, endData]

/-- **C217 counterexample**: the text of an element is not escaped. -/
theorem C217_counterexample : ¬ DocumentsReadBack := by
  intro h
  obtain ⟨fuel, hf⟩ := h 64 false ['a'] ['&'] (by decide) ⟨by simp, by decide⟩
  have hb : parseBody fuel ['a', '>', '&', '<', '/', 'a', '>', '\n'] = none := by
    cases fuel with
    | zero => rfl
    | succ n =>
      simp [parseBody, nonEmpty, parseAttrs, unescape, isNameChar, Char.isAlphanum, Char.isAlpha, Char.isUpper,
        Char.isLower, Char.isDigit]
  rw [written_amp] at hf
  simp only [parseDoc, List.take_left, List.drop_left, if_true] at hf
  rw [List.dropWhile_cons, if_pos (by decide), List.dropWhile_cons, if_neg (by decide)] at hf
  simp [hb] at hf

theorem written_injected (safe : Bool) : writeDoc 320 safe (.node ['a'] [] ['<', 'b', '/', '>'] .nil) =
    "<?xml version=\"1.0\" encoding=\"utf-8\"?>".toList ++ '\n' :: '<' :: ['a', '>', '<', 'b', '/', '>', '<', '/', 'a', '>', '\n'] := by
  simp [writeDoc, xml, line, maxLine, writeForest, writeAttrs, finish, endData]

/-- Markup in the text of an element becomes an element of its own. -/
theorem C217_injected : parseDoc 10 (writeDoc 320 false (.node ['a'] [] ['<', 'b', '/', '>'] .nil)) =
    some (.node ['a'] [] [] (.cons (.node ['b'] [] [] .nil) .nil)) := by
  have hb : parseBody 10 ['a', '>', '<', 'b', '/', '>', '<', '/', 'a', '>', '\n'] =
      some (.node ['a'] [] [] (.cons (.node ['b'] [] [] .nil) .nil), ['\n']) := by
    simp [parseBody, parseForest, nonEmpty, parseAttrs, parseClose, isSpace, isNameChar, Char.isAlphanum,
      Char.isAlpha, Char.isUpper, Char.isLower, Char.isDigit]
  rw [written_injected]
  simp only [parseDoc, List.take_left, List.drop_left, if_true]
  rw [List.dropWhile_cons, if_pos (by decide), List.dropWhile_cons, if_neg (by decide)]
  simp only [hb]
  rfl

def sample : Tree := .node "list".toList [("of".toList, "A & B".toList)] []
  (.cons (.node "file".toList [("name".toList, "x<y".toList), ("n".toList, "1".toList)] [] .nil)
    (.cons (.node "note".toList [] "read it".toList .nil) (.cons (.node "dir".toList [] [] (.cons (.node "file".toList [] [] .nil) .nil)) .nil)))

theorem sample_fits : TreeFits 320 1 sample := by
  have names : ∀ n ∈ ["list", "of", "file", "name", "n", "note", "dir"].map String.toList, IsName n := by
    unfold IsName; decide
  have noAttrs : AttrsFit 320 [] := by intro a ha; simp at ha
  simp only [sample, TreeFits, ForestFits]
  refine ⟨names _ (by decide), ?_, by decide, by decide, by decide, .inl trivial, ⟨names _ (by decide), ?_, by decide, by decide, by decide, .inl trivial, trivial⟩,
    ⟨names _ (by decide), noAttrs, by decide, by decide, by decide, .inr trivial, trivial⟩,
    ⟨names _ (by decide), noAttrs, by decide, by decide, by decide, .inl trivial,
      ⟨names _ (by decide), noAttrs, by decide, by decide, by decide, .inl trivial, trivial⟩, trivial⟩, trivial⟩
  · intro a ha
    rw [List.mem_singleton] at ha
    subst ha
    exact ⟨names _ (by decide), by decide, by decide⟩
  · intro a ha
    simp only [List.mem_cons, List.not_mem_nil, or_false] at ha
    rcases ha with rfl | rfl
    · exact ⟨names _ (by decide), by decide, by decide⟩
    · exact ⟨names _ (by decide), by decide, by decide⟩

example : parseDoc (treeSize sample) (writeDoc 320 false sample) = some sample := by
  refine C217_document_partial 320 false sample sample_fits ?_ _ (Nat.le_refl _)
  intro n a d k e
  simp only [sample, Tree.node.injEq] at e
  rw [← e.1]; decide

end Verif.Props.Xml
