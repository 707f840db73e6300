/-!
# Byte strings

Text is `List UInt8` (the bytes a `Str` spans, or the bytes before the terminating NUL of a C string).
`b!"abc"` is the list of the UTF-8 bytes of the literal, expanded at elaboration time.
-/
namespace Verif

abbrev Bytes := List UInt8

macro:max "b!" s:str : term => do
  let elems ← s.getString.toUTF8.toList.toArray.mapM fun b => `(($(Lean.quote b.toNat) : UInt8))
  `(([$elems,*] : List UInt8))

end Verif
