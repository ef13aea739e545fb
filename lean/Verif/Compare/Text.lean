import Verif.Compare.Report

/-!
# The texts of comparisons

The model of `mediagrains/comparison/_internal.py` for what a result says about itself: the names in its texts, `msg` and `str`.

Simplification: the text of a single result (`_msg`) is only named by the place of the result among the others, as a path of indices into
`children`. The values printed in it are left out.
-/

namespace Verif.Compare

/-! ## Names -/

/-- `str.format` with one argument, after the field for that argument: another field has no argument, so that any brace that is not doubled
raises (`IndexError`, `KeyError` or `ValueError`, here `none`). -/
def formatRest : List Char → Option (List Char)
  | '{' :: '{' :: cs => (formatRest cs).map ('{' :: ·)
  | '}' :: '}' :: cs => (formatRest cs).map ('}' :: ·)
  | '{' :: _ => none
  | '}' :: _ => none
  | c :: cs => (formatRest cs).map (c :: ·)
  | [] => some []

/-- `identifier.format(name)`, for instance in lines 228-231, for the identifiers there are: they have the field `{}` before any other brace.
-/
def format (name : List Char) : List Char → Option (List Char)
  | '{' :: '}' :: cs => (formatRest cs).map (name ++ ·)
  | c :: cs => (format name cs).map (c :: ·)
  | [] => some []

section
variable {P V : Type}

mutual
/-- Whether the texts of a result and of those inside it can be made: every result without others inside it formats its identifier, lines
225-231, 303-351, 392-408, 433-453, 462-479 and 885-888, and the others do not. -/
def Res.formats : Res P → Bool
  | .mk ident _ _ _ _ [] => (format ['a'] ident.toList).isSome
  | .mk _ _ _ _ _ (c :: cs) => c.formats && Res.allFormat cs
/-- The same for each of a list. -/
def Res.allFormat : List (Res P) → Bool
  | [] => true
  | c :: cs => c.formats && Res.allFormat cs
end

/-- `compare_grain` with the exceptions from making the texts, which is done in the constructors (line 83). -/
def compareGrainText (env : Env P V) (opts : List (Opt P)) (a b : Grain V) (key : Option Key := none) : Option (Res P) :=
  match compareGrain env opts a b key with
  | none => none
  | some r => if r.formats then some r else none

/-! ## Messages -/

/-- What a message is made of. -/
inductive Tok where
  /-- the text of one result -/
  | own (p : List Nat)
  /-- `(`, or `<IGNORING: ` -/
  | opens (ignoring : Bool)
  /-- `)`, or `>` -/
  | closes (ignoring : Bool)
  /-- `: ` -/
  | colon
  /-- `; ` -/
  | semi
deriving DecidableEq, Repr

/-- `'; '.join(msgs)`, line 127. -/
def joined : List (List Tok) → List Tok
  | [] => []
  | [m] => m
  | m :: n :: ms => m ++ .semi :: joined (n :: ms)

/-- Lines 124-127. -/
def withParts (p : List Nat) (msgs : List (List Tok)) : List Tok :=
  if msgs.length = 0 then [.own p] else .own p :: .colon :: joined msgs

mutual
/-- `msg`, lines 118-127, of the result at `p`. -/
def Res.toks (p : List Nat) : Res P → List Tok
  | .mk _ _ _ _ _ cs => withParts p (Res.parts false p 0 cs ++ Res.parts true p 0 cs)
/-- The lists of lines 122 (`ign` is `false`) and 123, from the child at `i` on. -/
def Res.parts (ign : Bool) (p : List Nat) : Nat → List (Res P) → List (List Tok)
  | _, [] => []
  | i, c :: cs =>
    if !c.equal && c.excluded == ign then (.opens ign :: (c.toks (p ++ [i]) ++ [.closes ign])) :: Res.parts ign p (i + 1) cs
    else Res.parts ign p (i + 1) cs
end

/-- The characters of a piece, `own` being the texts of the single results. -/
def Tok.text (own : List Nat → List Char) : Tok → List Char
  | .own p => own p
  | .opens false => "(".toList
  | .opens true => "<IGNORING: ".toList
  | .closes false => ")".toList
  | .closes true => ">".toList
  | .colon => ": ".toList
  | .semi => "; ".toList

/-- `r.msg`. -/
def Res.msg (own : List Nat → List Char) (r : Res P) : List Char := (r.toks []).flatMap (Tok.text own)

/-! ## Reports -/

mutual
/-- `_str`, lines 176-192, of the result at `p`: one line for each result, indented by twice the length of the path, with a sign and the
text. Simplification: the lines that show the samples of data that differs (354-383) are in `Compare/Matcher`. -/
def Res.lines (p : List Nat) : Res P → List (List Nat × Mark)
  | .mk i a k o e cs => (p, (Res.mk i a k o e cs).mark) :: Res.childLines p 0 cs
/-- Line 191, from the child at `i` on. -/
def Res.childLines (p : List Nat) : Nat → List (Res P) → List (List Nat × Mark)
  | _, [] => []
  | i, c :: cs => c.lines (p ++ [i]) ++ Res.childLines p (i + 1) cs
end

end

end Verif.Compare
