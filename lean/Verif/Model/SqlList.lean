import Verif.Model.Text

/-!
# `SQList` on a text (libstuff/libstuff.cpp:2759-2777)
-/

namespace Bedrock.Text

/-- Is the element the text of the number it is read as?  libstuff.cpp:2768-2770. -/
def canonical (e : Bytes) : Bool := intDec (strtoll e) == e

/-- `SQList(const string&, bool)`, libstuff.cpp:2759-2777. -/
def sqListText (s : Bytes) (integersOnly : Bool) : Bytes :=
  let l := (parseList s 44).1
  composeList (if integersOnly then l.filter canonical else l.map sq) [44, 32]

end Bedrock.Text
