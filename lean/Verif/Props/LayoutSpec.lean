import Verif.Props.LexExactSpec
/-!
# Contents written as pieces: white space and tokens (specification)
-/
namespace Verif.Lex

/-- A piece of a content: white space, and a token behind it (with what it swallows). -/
structure Piece where
  gap : Bytes
  text : Bytes
  over : Bytes
  type : TokType
  flags : Nat

/-- The text of a piece. -/
def Piece.all (q : Piece) : Bytes := q.gap ++ q.text ++ q.over

/-- `Laid ms l w`: the content `w` consists of the pieces `l`, and white space at the end. A line break that ends a line behind a `;` or `}` must
not be followed by another one (that would be a token itself). -/
inductive Laid (ms : Macros) : List Piece → Bytes → Prop where
  | nil {g} : Spaces g → Laid ms [] g
  | cons {q l w} : Spaces q.gap → Reads ms q.text q.over w q.type q.flags → (q.over.getLast? = some 10 → NotNext (fun b => b == 13 || b == 10) w) →
      Laid ms l w → Laid ms (q :: l) (q.all ++ w)

/-- The tokens of the pieces, from the position `p` on. -/
def toksAt : Pos → List Piece → List Tok
  | _, [] => []
  | p, q :: l => ⟨p.off + q.gap.length, q.text.length, q.type, p.line, p.col, q.flags⟩ :: toksAt (p.after q.all) l

end Verif.Lex
