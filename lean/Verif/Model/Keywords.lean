import Verif.Model.Enums
import Verif.Model.Crc
/-!
# Keyword recognition

Models `str_to_specifier`, `spec_is_trailing` (base/components/gen/especifier.hpp 78-110) and `str_to_toktype`
(base/components/gen/etoktype.hpp 222-237). The `do_once` key map is the list of the spellings' CRCs.
-/
namespace Verif

/-- The search loop of especifier.hpp 103-108 / etoktype.hpp 231-236: the first enumerator whose spelling has the CRC
`hash`, or `dflt`. -/
def searchKeymap {ε : Type} (spelling : ε → Bytes) (dflt : ε) (hash : BitVec 32) : List ε → ε
  | [] => dflt
  | e :: es => if Crc.crc32 (spelling e) = hash then e else searchKeymap spelling dflt hash es

/-- especifier.hpp 94-110 `str_to_specifier`. -/
def strToSpecifier (s : Bytes) : Specifier := searchKeymap specToStr .Invalid (Crc.crc32 s) Specifier.all

/-- etoktype.hpp 222-237 `str_to_toktype`. -/
def strToTokType (s : Bytes) : TokType := searchKeymap toktypeToStr .Invalid (Crc.crc32 s) TokType.all

/-- especifier.hpp 78-92 `spec_is_trailing`. -/
def specIsTrailing : Specifier → Bool
  | .Const | .Final | .NoExceptions | .Override | .Pure | .Delete | .Volatile => true
  | _ => false

end Verif
