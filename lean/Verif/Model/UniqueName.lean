import Verif.Model.Serialize
/-!
# Names for overloads (gen_c_library/components/misc.hpp)

C has no overloads: the generator gives a function a name made of its old name and its signature. Builders are the bytes they hold, as in Model/Serialize.lean. The new name points to the bytes of the
builder, which is never freed before the generator ends.
-/
namespace Verif.Ser
open Ast

/-- misc.hpp (gen_c_library) 183 and 202: `specs && specs->NumEntries > 0`, and then what is done with the specifiers. -/
def withSpecs (e : Env) (p : Nat) (k : List Specifier → W) : W :=
  if p = 0 then nop else reading (e.h.get p) fun n => if n.num > 0 then reading (iterSpecifiers e.h p) k else nop

/-- misc.hpp (gen_c_library) 193 and 209 `new_name.append_fmt( "%S_", spec_to_str( spec ) )`. -/
def specWord (e : Env) (s : Specifier) : W := e.fmt b!"%S_" [.str (some (specToStr s ++ [0])) (specToStr s).length]

/-- misc.hpp (gen_c_library) 168-199: the parameters from `p` on. -/
def uniqueParams (e : Env) : Nat → Bool → Nat → W
  | 0, _, _ => fun _ => .hang
  | fuel + 1, first, p =>
    if p = 0 then nop else
    reading (e.h.get p) fun n =>
    (if n.typ ≠ 0 then
      str (if first then b!"_P_" else b!"_") ++>
      reading (e.h.get n.typ) fun t =>
        withSpecs e t.specs (each fun s => if s = .Ptr then str b!"ptr_" else specWord e s) ++> e.fmt b!"%S" [e.name n.typ t]
     else nop) ++>
    uniqueParams e fuel (first && decide (n.typ = 0)) n.back

/-- misc.hpp (gen_c_library) 153-211: the new name of the function `p`. -/
def uniqueName (e : Env) (fuel : Nat) (pre : Bytes) (p : Nat) : W :=
  reading (e.h.get p) fun n =>
  (if pre ≠ [] then e.fmt b!"%S_%S_" [.str (some (pre ++ [0])) pre.length, e.name p n] else e.fmt b!"%S_" [e.name p n]) ++>
  opt (n.typ ≠ 0) (reading (e.h.get n.typ) fun t => e.fmt b!"_%S" [e.name n.typ t]) ++>
  uniqueParams e fuel true n.params ++>
  withSpecs e n.specs fun l => str b!"_S_" ++> each (specWord e) l

/-- misc.hpp (gen_c_library) 151-215 `rename_function_to_unique_symbol`. -/
def renameUnique (e : Env) (fuel : Nat) (pre : Bytes) (p : Nat) : Res Heap :=
  (uniqueName e fuel pre p []).bind fun t => e.h.upd p fun n => { n with name := t }

end Verif.Ser
