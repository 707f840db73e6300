import Verif.Model.Serialize
import Verif.Props.Specifiers
/-!
# Serialization: vocabulary of the statements

`Prints e .code p t`: `code_to_strbuilder` of node `p` returns the text `t` (and the other entry points likewise). The pieces of text
that depend on a slot of the node are given here.
-/
namespace Verif.Ser
open Ast

/-- The word in front of a type, by its tag: none, class, enum, struct, union. -/
def tagWord (t : Nat) : Bytes := [b!"", b!"class ", b!"enum ", b!"struct ", b!"union "].getD t b!""

theorem tagText_eq (t : Nat) : tagText t = tagWord t := by
  match t with
  | 0 | 1 | 2 | 3 | 4 => rfl
  | n + 5 => simp [tagText, tagWord]

/-- The serializer `f`, called on `p`, ends and returns the text `t`. -/
def Prints (e : Env) (f : Fn) (p : Nat) (t : Bytes) : Prop := ∃ fuel, ser e fuel f p [] = .ok t

/-- A text `strbuilder_append_fmt` can handle: no NUL bytes, and shorter than its buffer. -/
def Fits (t : Bytes) : Prop := (0 : UInt8) ∉ t ∧ t.length < 131070

/-- The serializer `f`, called on `p`, returns the text `t`, if that is a text that can be handled. -/
def Says (e : Env) (f : Fn) (p : Nat) (t : Bytes) : Prop := Fits t → Prints e f p t

/-- A slot that is empty or holds a node. -/
def Slot (e : Env) (p : Nat) : Prop := p ≠ 0 → e.h.Valid p

/-- What `%S` prints for a name or content: an unset one is `(null)`. -/
def strText (null : Bool) (t : Bytes) : Bytes := if t = [] ∧ null then b!"(null)" else t

/-- `%S` of the name of node `p`. -/
def nameText (e : Env) (p : Nat) : Bytes := strText (e.nullStr p) (e.h.cell p).name

/-- `%S` of the content of node `p`. -/
def contentText (e : Env) (p : Nat) : Bytes := strText (e.nullStr p) (e.h.cell p).content

/-- The text `t` if the slot is used. -/
def optText (slot : Nat) (t : Bytes) : Bytes := if slot = 0 then [] else t

/-- The text `t` if the condition holds. -/
def ifText (c : Prop) [Decidable c] (t : Bytes) : Bytes := if c then t else []

/-- `export ` for an exported declaration. -/
def exportText (n : Node) : Bytes := ifText (exported n) b!"export "

/-- Attributes, followed by a space. -/
def attrText (e : Env) (n : Node) : Bytes := optText n.attributes ((e.h.cell n.attributes).content ++ b!" ")

/-- The end of a definition: `t`, unless it is part of a typedef or of a variable definition. -/
def endText (e : Env) (n : Node) (t : Bytes) : Bytes :=
  if n.parent ≠ 0 ∧ ((e.h.cell n.parent).type = .Typedef ∨ (e.h.cell n.parent).type = .Variable) then [] else t

/-- The end of a statement: `before ++ comment ++ after`, or `plain` without comment. -/
def cmtText (e : Env) (n : Node) (before after plain : Bytes) : Bytes :=
  if n.inlineCmt = 0 then plain else before ++ contentText e n.inlineCmt ++ after

/-- The specifiers in the slot are `l`. -/
def SpecSlot (e : Env) (p : Nat) (l : List Specifier) : Prop := if p = 0 then l = [] else IsSpecs e.h p l

/-- Specifiers in front of or behind a signature: each after a space. -/
def spaced (l : List Specifier) : Bytes := l.flatMap fun s => b!" " ++ specToStr s

/-- The specifiers in front of a signature. -/
def leading (l : List Specifier) : List Specifier := l.filter fun s => !specIsTrailing s

/-- The specifiers behind a signature. -/
def trailing (l : List Specifier) : List Specifier := l.filter specIsTrailing

/-- A list of specifiers of a type or variable: separated by spaces, but no space before `*`, `&`, `&&`; a space at the end. -/
def specsText : List Specifier → Bytes
  | [] => b!" "
  | s :: l => specToStr s ++ (l.flatMap fun s => (if s = .Ptr ∨ s = .Ref ∨ s = .RValue then [] else b!" ") ++ specToStr s) ++ b!" "

/-- `private`, `public` or nothing. -/
def accessText (a : Int) : Bytes :=
  if a = 1 then b!"private" else if a = 3 then b!"public" else if a = 0 then [] else b!"Invalid"

/-- The nodes reached from `p` through `Next` are `l`, and then comes null. -/
def Linked (h : Heap) : Nat → List Nat → Prop
  | p, [] => p = 0
  | p, q :: l => p = q ∧ h.Valid q ∧ Linked h (h.cell q).back l

/-- The texts of a list of nodes. -/
def PrintAll (e : Env) (f : Fn) : List Nat → List Bytes → Prop
  | [], [] => True
  | p :: ps, t :: ts => Prints e f p t ∧ PrintAll e f ps ts
  | _, _ => False

/-- Every text between `before` and `after`. -/
def wrapped (before after : Bytes) (ts : List Bytes) : Bytes := ts.flatMap fun t => before ++ t ++ after

/-- Node `p` is of the type `ty`, with the contents `n`. -/
structure Is (e : Env) (p : Nat) (ty : CodeType) (n : Node) : Prop where
  valid : e.h.Valid p
  cell : e.h.cell p = n
  type : n.type = ty

/-- Return type (printed as `rt`), name and parameters (printed as `pt`) of a function. -/
def sigText (e : Env) (p : Nat) (n : Node) (rt pt : Bytes) : Bytes :=
  optText n.typ (rt ++ b!" ") ++ nameText e p ++ b!"(" ++ optText n.params pt ++ b!")"

/-- A line break, if there are attributes or leading specifiers. -/
def breakText (n : Node) (l : List Specifier) : Bytes := ifText (n.attributes ≠ 0 ∨ l ≠ []) b!"\n"

/-- The value (printed as `v`) of a variable, the other variables of the statement (printed as `nx`), and the closing parenthesis. -/
def initText (n : Node) (v nx : Bytes) : Bytes :=
  optText n.body (if n.num ≠ 0 then b!"( " ++ v ++ b!" " else b!" = " ++ v) ++ optText n.suffix (b!", " ++ nx) ++
    ifText (n.num ≠ 0) b!" )"

end Verif.Ser
