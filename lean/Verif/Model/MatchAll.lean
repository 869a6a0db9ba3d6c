import Verif.Model.Literal

/-!
# Model of the search for all matches of a pattern

`/repo/libstuff/libstuff.cpp:3217-3265` (`SREMatch` with `partialMatch`), `3267-3279` (`SREMatchAll`).

PCRE2 is a parameter: what it finds in the text it is given.  It is given the rest of the input only (3235), so it does not see what is
before.  A search that PCRE2 gives up (the depth is limited, 3232) finds nothing.
-/

namespace Bedrock.MatchAll
open Bedrock

/-- What PCRE2 finds: where, how long, and the groups of the pattern, where they took part: `ovector`. -/
structure Match where
  start : Nat
  len : Nat
  groups : List (Option (Nat × Nat)) := []
  deriving DecidableEq

/-- `pcre2_match` of a compiled pattern. -/
abbrev Regex := Bytes → Option Match

/-- `input.substr(startOffset + start, end - start)`, libstuff.cpp:3252. -/
def piece (input : Bytes) (off : Nat) (g : Nat × Nat) : Bytes := (input.drop (off + g.1)).take g.2

/-- `SREMatch`, libstuff.cpp:3235-3258: where the match is, and the texts.  A group that took no part is left out (3249-3251). -/
def search (re : Regex) (input : Bytes) (off : Nat) : Option (Nat × List Bytes) :=
  match re (input.drop off) with
  | none => none
  | some m => some (off + m.start, (some (m.start, m.len) :: m.groups).filterMap (fun g => g.map (piece input off)))

/-- The loop of `SREMatchAll`, libstuff.cpp:3273-3276, for so many rounds: `none` if it has not ended by then.  With each match is where
it was found. -/
def loop (re : Regex) (input : Bytes) : Nat → Nat → Option (List (Nat × List Bytes))
  | 0, _ => none
  | fuel + 1, off =>
    match search re input off with
    | none => some []
    | some (o, texts) => (loop re input fuel (o + (texts.headD []).length)).map ((o, texts) :: ·)

/-- `SREMatchAll`, libstuff.cpp:3267-3279. -/
def matchAll (re : Regex) (input : Bytes) (fuel : Nat) : Option (List (Nat × List Bytes)) := loop re input fuel 0

end Bedrock.MatchAll
