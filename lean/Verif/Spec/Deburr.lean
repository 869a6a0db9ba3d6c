import Verif.Model.Basic

/-!
# What removing accents means, character by character

Written with the characters themselves, not with code points, and without the model.
-/

namespace Bedrock.Deburr.Spec

/-- The UTF-8 text of a list of characters. -/
def utf8 (l : List Char) : Bytes := l.flatMap String.utf8EncodeChar

/-- The accented letters of Latin-1 and Latin Extended-A that have a plain form, under that form. -/
def plainForms : List (String × String) :=
  [("A", "ÀÁÂÃÄÅĀĂĄ"), ("a", "àáâãäåāăą"), ("AE", "Æ"), ("ae", "æ"),
   ("C", "ÇĆĈĊČ"), ("c", "çćĉċč"), ("D", "ÐĎĐ"), ("d", "ðďđ"),
   ("E", "ÈÉÊËĒĔĖĘĚ"), ("e", "èéêëēĕėęě"),
   ("G", "ĜĞĠĢ"), ("g", "ĝğġģ"), ("H", "ĤĦ"), ("h", "ĥħ"),
   ("I", "ÌÍÎÏĨĪĬĮİ"), ("i", "ìíîïĩīĭįı"), ("IJ", "Ĳ"), ("ij", "ĳ"), ("J", "Ĵ"), ("j", "ĵ"),
   ("K", "Ķ"), ("k", "ķĸ"), ("L", "ĹĻĽĿŁ"), ("l", "ĺļľŀł"),
   ("N", "ÑŃŅŇŊ"), ("n", "ñńņňŉŋ"), ("O", "ÒÓÔÕÖØŌŎŐ"), ("o", "òóôõöøōŏő"), ("OE", "Œ"), ("oe", "œ"),
   ("R", "ŔŖŘ"), ("r", "ŕŗř"), ("S", "ŚŜŞŠ"), ("s", "śŝşšſ"), ("ss", "ß"),
   ("T", "ŢŤŦ"), ("t", "ţťŧ"), ("TH", "Þ"), ("th", "þ"),
   ("U", "ÙÚÛÜŨŪŬŮŰŲ"), ("u", "ùúûüũūŭůűų"), ("W", "Ŵ"), ("w", "ŵ"),
   ("Y", "ÝŶŸ"), ("y", "ýÿŷ"), ("Z", "ŹŻŽ"), ("z", "źżž")]

/-- Accented letters that the table of the code leaves out. -/
def leftOut : List Char := "ďĜĝĞğĠġĢģĤĥĦħ".toList

/-- A combining accent. -/
def combining (c : Char) : Bool := 0x300 ≤ c.toNat && c.toNat ≤ 0x36F

/-- What becomes of one character. -/
def plain (c : Char) : List Char :=
  if combining c then []
  else match plainForms.find? (fun p => p.2.toList.contains c) with
    | some p => p.1.toList
    | none => [c]

/-- What the code makes of one character: as `plain`, but the letters it leaves out stay and `Đ`
becomes the small letter. -/
def done (c : Char) : List Char :=
  if c ∈ leftOut then [c] else if c = 'Đ' then ['d'] else plain c

end Bedrock.Deburr.Spec
