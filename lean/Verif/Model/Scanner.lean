import Verif.Model.CStr
/-!
# Scanning a file (base/auxiliary/scanner.cpp)

The buffer holds the bytes of the file and a NUL; `left` is the number of bytes from `scanner` on, so the state is the rest of the content.
Reading behind the NUL is undefined behaviour; moving forward behind the end leads to it at once (`left` becomes -1 and is not 0).
Simplifications: opening and reading the file are in Model/Files.lean, here the content is given; it has fewer than 2^31 bytes (`left` is an `s32`).
-/
namespace Verif.Scanner
open Verif.CStr

/-- scanner.cpp 34 `move_fwd()`. -/
def fwd : Bytes → Res Bytes
  | [] => .ub
  | _ :: r => .ok r

/-- scanner.cpp 49-50, 59-60: `while ( left && char_is_space( current ) ) move_fwd();` -/
def skipSpace (r : Bytes) : Bytes := r.dropWhile charIsSpace

/-- scanner.cpp 73-74, 89-90: `while ( left && current != '\r' && current != '\n' ) move_fwd();` -/
def toEol (r : Bytes) : Bytes := r.dropWhile fun c => c ≠ 13 && c ≠ 10

/-- scanner.cpp 54, 62, 82: `left && c_str_compare_len( scanner, word.Ptr, word.Len ) == matched`. -/
def isWord (lt : Bool) (word r : Bytes) : Res Bool :=
  if r = [] then .ok false else (compareLen lt (r ++ [0]) (word ++ [0]) word.length).bind fun v => .ok (v = 0)

/-- scanner.cpp 72-78, 88-94: to the end of the line, one byte on, and over a newline. -/
def endOfLine (r : Bytes) : Res Bytes :=
  (fwd (toEol r)).bind fun r =>
  match r with
  | 10 :: r => .ok r
  | r => .ok r

/-- scanner.cpp 52-81: a directive while the block has not been found: whether it begins the block, and the rest. -/
def beforeBlock (lt : Bool) (r : Bytes) : Res (Bool × Bytes) :=
  (isWord lt b!"ifdef" r).bind fun i =>
  if i then
    let r := skipSpace (r.drop 5)
    (isWord lt b!"INTELLISENSE_DIRECTIVES" r).bind fun d =>
    (endOfLine (if d then r.drop 23 else r)).bind fun r => .ok (d, r)
  else (endOfLine r).bind fun r => .ok (false, r)

/-- scanner.cpp 42-112: the loop. The result is what is left in the buffer. -/
def loop (lt : Bool) (content : Bytes) : Nat → Bool → Bytes → Res Bytes
  | 0, _, _ => .hang
  | _, _, [] => .ok content
  | fuel + 1, found, c :: r =>
    if c = 35 then
      let r := skipSpace r
      if !found then (beforeBlock lt r).bind fun x => loop lt content fuel x.1 x.2
      else
        (isWord lt b!"endif" r).bind fun e =>
        if e then endOfLine (r.drop 5) else (fwd r).bind (loop lt content fuel true)
    else loop lt content fuel found r

/-- scanner.cpp 7-121 `scan_file`: the text of the code. -/
def scanFile (lt : Bool) (content : Bytes) : Res Bytes :=
  if content = [] then .stop else loop lt content (content.length + 1) false content

end Verif.Scanner
