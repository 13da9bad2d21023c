/-!
Model of the XML writer of corec (`/repo/corec/corec/helpers/parser/parser2.c:246-293`, `443-574`).

Simplifications:
* a text is the list of its characters; the conversion to UTF-8 changes none of them (see Ebml/Text.lean for conversions);
* `TextPrintf` formats into a line of `MAXLINE` characters, which cuts the documented text (see Printf.lean for the formatting);
  indentation by 1023 characters and more is not modelled apart from that;
* writing to the stream succeeds, and the newlines are those of Linux;
* attributes are texts (`TYPE_STRING`); `cap` is `TSIZEOF(Value)`, which is `MAXDATA+64`.
-/
namespace Verif.Xml

abbrev Text := List Char

/-- `MAXLINE`, parser.h:21. -/
def maxLine : Nat := 1024

/-- What `TextPrintf` and `TextWrite` write of a text, parser2.c:246-254 and 271-293. -/
def line (t : Text) : Text := t.take (maxLine - 1)

/-- A `textwriter` without stream and converter, parser.h:59-71. -/
structure W where
  safe : Bool
  element : Text
  deep : Nat
  hasChild : Bool
  inside : Bool
deriving DecidableEq, Repr

/-- `%*c` with `<`: the width counts the character. -/
def pad (width : Nat) : Text := List.replicate (width - 1) ' ' ++ ['<']

/-- The replacement of a character, parser2.c:466-474. -/
def entity : Char → Text
  | '&' => "&amp;".toList
  | '"' => "&quot;".toList
  | '<' => "&lt;".toList
  | '>' => "&gt;".toList
  | c => [c]

/-- The loop over the text of an attribute, parser2.c:463-482: `room` is `TSIZEOF(Value)-1-i`. `tcscpy_s` cuts the replacement at the end of
the buffer. -/
def escape : Nat → Text → Text
  | _, [] => []
  | room, c :: cs =>
    if room = 0 then []
    else (entity c).take room ++ escape (room - (entity c).length) cs

/-- `TextAttrib` for a text, parser2.c:443-501; `optional` is `TFLAG_DEFAULT` (324-330), with which an empty text is not written. -/
def attrib (cap : Nat) (optional : Bool) (name value : Text) : Text :=
  if optional && value.isEmpty then []
  else line (' ' :: name ++ ['=', '"'] ++ escape (cap - 1) value ++ ['"'])

/-- `TextElementXML`, parser2.c:564-574. `SafeFormat` is set behind the call by those who want it. -/
def xml (safe : Bool) (root : Text) : W × Text :=
  (⟨safe, root, 1, false, false⟩, line ("<?xml version=\"1.0\" encoding=\"utf-8\"?>\n<".toList ++ root))

/-- `TextElementBegin`, parser2.c:503-521: the writer of the parent, the one of the element, and the text. -/
def beginElement (p : W) (name : Text) : W × W × Text :=
  let t := if p.hasChild then [] else if p.inside then ['>'] else ['>', '\n']
  let deep := if p.inside then 0 else p.deep + 2
  ({ p with hasChild := true },
   ⟨p.safe, name, deep, false, p.deep == 0⟩,
   line t ++ line (pad (if p.deep ≠ 0 then deep else 0) ++ name))

/-- `TextElementEnd`, parser2.c:523-541. -/
def endElement (w : W) : Text :=
  if w.hasChild then
    if w.inside then line ("</".toList ++ w.element ++ "> ".toList)
    else line (pad w.deep ++ ['/'] ++ w.element ++ ['>', '\n'])
  else
    (if w.safe then line ("></".toList ++ w.element ++ ['>']) else line "/>".toList) ++ (if w.inside then [] else ['\n'])

/-- `TextElementEndData`, parser2.c:543-549. -/
def endData (w : W) (value : Text) : Text :=
  if w.hasChild then line (value ++ pad w.deep ++ ['/'] ++ w.element ++ ['>', '\n'])
  else line ('>' :: value ++ "</".toList ++ w.element ++ ['>', '\n'])

/-! A program that writes a tree of elements. -/

mutual
/-- An element: name, attributes, text and children. -/
inductive Tree where
  | node (name : Text) (attrs : List (Text × Text)) (data : Text) (kids : Forest)
/-- Elements. -/
inductive Forest where
  | nil
  | cons (t : Tree) (f : Forest)
end

/-- The attributes of an element. -/
def writeAttrs (cap : Nat) (as : List (Text × Text)) : Text := as.flatMap fun a => attrib cap false a.1 a.2

/-- How an element is ended: with its text if it has one. -/
def finish (w : W) (data : Text) : Text := if data = [] then endElement w else endData w data

mutual
/-- Writing an element below `p`. -/
def writeTree (cap : Nat) (p : W) : Tree → W × Text
  | .node name as data kids =>
    let r := beginElement p name
    let k := writeForest cap r.2.1 kids
    (r.1, r.2.2 ++ writeAttrs cap as ++ k.2 ++ finish k.1 data)
/-- Writing elements below `p`. -/
def writeForest (cap : Nat) (p : W) : Forest → W × Text
  | .nil => (p, [])
  | .cons t f =>
    let r := writeTree cap p t
    let s := writeForest cap r.1 f
    (s.1, r.2 ++ s.2)
end

/-- Writing a document. -/
def writeDoc (cap : Nat) (safe : Bool) : Tree → Text
  | .node name as data kids =>
    let r := xml safe name
    let k := writeForest cap r.1 kids
    r.2 ++ writeAttrs cap as ++ k.2 ++ finish k.1 data

end Verif.Xml
