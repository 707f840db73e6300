import Verif.Model.CStr
import Verif.Model.Bytes
/-!
# Stripping formatting

Models base/components/parser.cpp 251-490 `parser_strip_formatting`. The text is `raw`; `pos` is `scanner - raw_text.Ptr`, so `tokleft` is
`raw.length - pos`. The string builder is the list of its bytes (that its operations do that is C15). Once the scanner has moved past
the end of the text `tokleft` is negative and the loop runs on through memory: `ub`.
-/
namespace Verif.Strip

/-- The variables of `parser_strip_formatting`: `scanner`, `last_cut`, `must_keep_newline`, `content`. -/
structure St where
  pos : Nat
  cut : Nat
  keep : Bool
  out : Bytes
  deriving DecidableEq, Repr

/-- parser.cpp 291: `while ( tokleft && ( scanner[0] != '"' || *( scanner - 1 ) == '\\' ) )`; where the scanner stops. -/
def stringEnd (raw : Bytes) : Nat → Nat → Nat
  | 0, p => p
  | fuel + 1, p =>
    match raw[p]? with
    | none => p
    | some b =>
      if b = 34 ∧ raw[p - 1]? ≠ some 92 then p
      else if b = 92 ∧ p + 1 < raw.length then stringEnd raw fuel (p + 2)
      else stringEnd raw fuel (p + 1)

/-- parser.cpp 318-324: the loop over a character literal. -/
def charEnd (raw : Bytes) : Nat → Nat → Nat
  | 0, p => p
  | fuel + 1, p =>
    match raw[p]? with
    | none => p
    | some b => if b = 39 ∧ raw[p - 1]? ≠ some 92 then p else charEnd raw fuel (p + 1)

/-- parser.cpp 338-339: `while ( tokleft > 1 && !(scanner[0] == '*' && scanner[1] == '/') )`. -/
def blockEnd (raw : Bytes) : Nat → Nat → Nat
  | 0, p => p
  | fuel + 1, p =>
    if p + 1 < raw.length ∧ ¬ (raw[p]? = some 42 ∧ raw[p + 1]? = some 47) then blockEnd raw fuel (p + 1) else p

/-- parser.cpp 356-357: `while ( tokleft && scanner[ 0 ] != '\n' )`. -/
def lineEnd (raw : Bytes) : Nat → Nat → Nat
  | 0, p => p
  | fuel + 1, p => if p < raw.length ∧ raw[p]? ≠ some 10 then lineEnd raw fuel (p + 1) else p

/-- parser.cpp 460-464: the loop over consecutive spaces. -/
def spaceEnd (raw : Bytes) : Nat → Nat → Nat
  | 0, p => p
  | fuel + 1, p =>
    match raw[p]? with
    | none => p
    | some b => if charIsSpace b then spaceEnd raw fuel (p + 1) else p

/-- `cut_ptr`, `cut_length` with the scanner at `p`. -/
def cutText (raw : Bytes) (cut p : Nat) : Bytes := (raw.drop cut).take (p - cut)

/-- `strbuilder_append_c_str_len( & content, cut_ptr, cut_length ); last_cut = …` with the scanner at `p`. -/
def St.flush (raw : Bytes) (s : St) (p : Nat) : St := { s with pos := p, cut := p, out := s.out ++ cutText raw s.cut p }

/-- `if ( * strbuilder_back( content ) != ' ' ) strbuilder_append_char( & content, ' ' );`. The byte before an empty content is the
last one of the `Length` in front of it (0). -/
def addSpace (out : Bytes) : Bytes := if out.getLast? = some 32 then out else out ++ [32]

/-- parser.cpp 366-377, 394-404, 423-433: a tab or a newline of `n` bytes becomes a space. -/
def St.blank (raw : Bytes) (s : St) (n : Nat) : St :=
  { s with pos := s.pos + n, cut := s.pos + n, out := addSpace (s.out ++ cutText raw s.cut s.pos) }

/-- parser.cpp 409-418: a newline of `n` bytes that is kept. -/
def St.newline (raw : Bytes) (s : St) (n : Nat) : St := { s.flush raw (s.pos + n) with keep := false }

/-- parser.cpp 437-460: a backslash. -/
def St.backslash (raw : Bytes) (s : St) : St :=
  let skip := if raw[s.pos + 1]? = some 10 then 2 else if raw[s.pos + 1]? = some 13 ∧ raw[s.pos + 2]? = some 10 then 3 else 1
  let n := if skip > 1 ∧ s.pos = s.cut then skip else 1
  { s with pos := s.pos + n, cut := s.pos + n, out := s.out ++ cutText raw s.cut s.pos }

/-- parser.cpp 280-480: one turn of the loop, with the byte `b` at the scanner. -/
def step (raw : Bytes) (preserve : Bool) (s : St) (b : UInt8) : St :=
  let b1 := raw[s.pos + 1]?
  let n := raw.length + 1
  if b = 34 then
    let p := stringEnd raw n (s.pos + 1)
    s.flush raw (if p < raw.length then p + 1 else p)
  else if b = 39 then
    let p := charEnd raw n (s.pos + 1)
    s.flush raw (if p < raw.length then p + 1 else p)
  else if b = 47 ∧ b1 = some 42 then s.flush raw (blockEnd raw n s.pos + 2)
  else if b = 47 ∧ b1 = some 47 then
    let p := lineEnd raw n (s.pos + 2)
    { s.flush raw (if p < raw.length then p + 1 else p) with keep := true }
  else if b = 9 then s.blank raw 1
  else if b = 13 ∧ b1 = some 10 then
    if s.keep ∨ preserve then s.newline raw 2 else s.blank raw 2
  else if b = 10 then
    if s.keep ∨ preserve then s.newline raw 1 else s.blank raw 1
  else if b = 92 then s.backslash raw
  else if charIsSpace b ∧ (b1.any charIsSpace) then
    let out := s.out ++ cutText raw s.cut s.pos
    let p := spaceEnd raw n (s.pos + 1)
    { s with pos := p, cut := p, out := addSpace out }
  else { s with pos := s.pos + 1 }

/-- parser.cpp 280-480: `while ( tokleft )`. -/
def loop (raw : Bytes) (preserve : Bool) : Nat → St → Res St
  | 0, _ => .hang
  | fuel + 1, s =>
    if s.pos = raw.length then .ok s
    else match raw[s.pos]? with
      | none => .ub
      | some b => loop raw preserve fuel (step raw preserve s b)

/-- parser.cpp 257-490 `parser_strip_formatting`. -/
def strip (raw : Bytes) (preserve : Bool := false) : Res Bytes :=
  if raw = [] then .ok [] else
  let p := if raw[0]? = some 32 then 1 else 0
  (loop raw preserve (raw.length + 2) ⟨p, p, false, []⟩).bind fun s =>
  .ok (if s.cut < raw.length then s.out ++ cutText raw s.cut raw.length else s.out)

end Verif.Strip
