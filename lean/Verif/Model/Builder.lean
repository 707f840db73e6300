import Verif.Model.Printing
import Verif.Model.Serialize
/-!
# The builder of a file (base/auxiliary/builder.cpp)

Simplifications: opening the file succeeds and leaves it empty (mode `w`), and `file_write` writes all the bytes it is given (see Model/Files.lean); the builder's
buffer is a `StrBuilder` (`Verif.Model.StrBuilder`), the codes are those of the heap `e.h`.
-/
namespace Verif.Builder
open Verif.Fmt

/-- What a user does with a builder between `builder_open` and `builder_write`. -/
inductive Op where
  | padLines (num : Int)
  | print (code : Nat)
  | printFmt (fmt : Bytes) (args : List Arg)

/-- builder.cpp 7-24 `builder_open`: the buffer, with `InitSize_BuilderBuffer`. -/
def openFile (size : Nat) : SB := SB.makeReserve size

/-- builder.cpp 26-52 `builder_pad_lines`, `builder_print`, `builder_print_fmt_va` (the last one is `strbuilder_append_fmt` word for word). -/
def step (lt : Bool) (e : Ser.Env) (fuel : Nat) (b : SB) : Op → Res SB
  | .padLines _ => (b.appendStr b!"\n").bind fun r => .ok r.2
  | .print p => (Ser.codeToStr e fuel p).bind fun t => (SB.makeStr t).bind fun s => (b.appendString s).bind fun r => .ok r.2
  | .printFmt fmt args => (appendFmt lt b fmt args).bind fun r => .ok r.2

/-- One after the other. -/
def run (lt : Bool) (e : Ser.Env) (fuel : Nat) : SB → List Op → Res SB
  | b, [] => .ok b
  | b, o :: l => (step lt e fuel b o).bind fun b => run lt e fuel b l

/-- builder.cpp 54-64 `builder_write`: the content of the file. -/
def write (b : SB) : Res Bytes := SB.readN b.data 0 b.len

/-- A builder from beginning to end: the content of the file. -/
def session (lt : Bool) (e : Ser.Env) (fuel size : Nat) (l : List Op) : Res Bytes := (run lt e fuel (openFile size) l).bind write

end Verif.Builder
