import Verif.Model.Files
import Verif.Model.Printing
/-!
# Formatting and refactoring a code with other programs (base/helpers/misc.hpp)

A shell is what `system` does: it gets the text of a command and changes the names and nodes of the disk in whatever way. Paths are C strings that are not
null (`GEN_ASSERT_NOT_NULL` of the parameters is not modelled), without the NUL behind them. Not modelled: the line break that `refactor_file` logs on the
standard output (57), and the states of the disk while another program runs.
-/
namespace Verif.Tools
open Verif.Os Verif.Files

abbrev Shell := Bytes → Disk → Disk

/-- `system( command )`: the builder is passed as a C string. -/
def system (sh : Shell) (s : Sys) (command : SB) : Res Sys := do
  let c ← command.cView
  return { s with os := s.os.become (sh c s.os.disk) }

/-- misc.hpp 25-29: `none` if `style_arg` was never given a value. -/
def styleArg (lt : Bool) : Option Bytes → Res (Option SB)
  | none => .ok none
  | some style => do
    let a ← SB.makeStr b!"-style=file:"
    let (_, a) ← Fmt.appendFmt lt a (b!"%s " ++ [0]) [.cstr (some (style ++ [0]))]
    return some a

/-- misc.hpp 21-41 `clang_format_file`. -/
def clangFormatFile (lt : Bool) (sh : Shell) (s : Sys) (path : Bytes) (style : Option Bytes) : Res Sys := do
  let resolved ← SB.makeStr path
  let style ← styleArg lt style
  let command ← SB.makeStr b!"clang-format "
  let (_, command) ← command.appendStr b!"-i "
  let (_, command) ← command.appendStr b!"-verbose "
  match style with
  | none => .ub
  | some a =>
    let (_, command) ← command.appendString a
    let (_, command) ← command.appendString resolved
    system sh s command

/-- misc.hpp 46-58 `refactor_file`. -/
def refactorFile (lt : Bool) (sh : Shell) (s : Sys) (path script : Bytes) : Res Sys := do
  let command ← SB.makeStr b!"refactor "
  let (_, command) ← command.appendStr b!"-num=1 "
  let (_, command) ← Fmt.appendFmt lt command (b!"-src=%s " ++ [0]) [.cstr (some (path ++ [0]))]
  let (_, command) ← Fmt.appendFmt lt command (b!"-spec=%s " ++ [0]) [.cstr (some (script ++ [0]))]
  system sh s command

/-- remove(3) of a file: the name goes, the node stays for the other names that lead to it. -/
def remove (s : Sys) (path : Bytes) : Sys :=
  let (fate, o) := s.os.draw
  if fate = .fails then { s with os := o }
  else match o.disk.look path with
    | none => { s with os := o }
    | some _ => { s with os := o.become { o.disk with names := o.disk.names.filter fun x => x.1 != path } }

/-- misc.hpp 69-71 and 72-74: nothing without a script or style. -/
def optionally (f : Sys → Bytes → Res Sys) (s : Sys) : Option Bytes → Res Sys
  | none => .ok s
  | some x => f s x

/-- misc.hpp 62-80 `code_refactor_and_format`: the text of the resulting code (that the scanned text becomes an untyped code is C31). -/
def refactorAndFormat (fatal lt : Bool) (sh : Shell) (e : Ser.Env) (fuel size : Nat) (s : Sys) (code : Nat) (scratch : Bytes) (script style : Option Bytes) : Res (Bytes × Sys) := do
  let (_, s) ← builderSession fatal lt e fuel size s scratch [.print code]
  let s ← optionally (fun s script => refactorFile lt sh s scratch script) s script
  let s ← optionally (fun s style => clangFormatFile lt sh s scratch (some style)) s style
  let (t, s) ← scanPath lt s scratch
  return (t, remove s scratch)

end Verif.Tools
