import Verif.Model.Values
/-
What is shown of the texts that ROOT stores, whatever their bytes are.
-/
namespace Verif

/-- What is shown for it: nothing at all unless it is UTF-8. -/
def shownText (s : List Byte) : Str := if utf8 s then s else []

end Verif
