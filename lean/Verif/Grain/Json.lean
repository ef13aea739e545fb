import Verif.Utf8

/-!
# JSON text

`json.dumps` and `json.loads` of the standard library with their default arguments, as `EventGrain.data` uses them
(`mediagrains/grains/EventGrain.py` 26, 183-192).

Simplifications: text is a list of code points (surrogates allowed, as in python strings); a float is the decimal
text that `repr` gives for it (so it is assumed that `float(repr(x)) == x`); NaN and the infinities are left out, as
are dictionaries with keys that are not strings, and python's limits on recursion depth and on the digits of an integer.
-/

namespace Verif.Json

/-- A python string: its code points. -/
abbrev Str := List Nat

/-- The parts of a decimal number, as matched by `NUMBER_RE`: `(-?(?:0|[1-9]\d*))(\.\d+)?([eE][-+]?\d+)?`. -/
structure Num where
  neg : Bool
  int : Str
  frac : Option Str
  /-- The exponent with its sign, if any. -/
  exp : Option (Nat × Option Nat × Str)
deriving DecidableEq, Repr

inductive J where
  | null
  | bool (b : Bool)
  | int (n : Int)
  | flt (x : Num)
  | str (s : Str)
  | arr (l : List J)
  | obj (l : List (Str × J))
deriving Repr

/-! ## Writing -/

/-- One hexadecimal digit, lower case. -/
def hexDigit (n : Nat) : Nat := if n < 10 then 48 + n else 87 + n

/-- `\uXXXX`. -/
def uEsc (n : Nat) : Str :=
  [92, 117, hexDigit (n / 4096 % 16), hexDigit (n / 256 % 16), hexDigit (n / 16 % 16), hexDigit (n % 16)]

/-- `json.encoder.py_encode_basestring_ascii`, one character. -/
def escChar (c : Nat) : Str :=
  if c = 34 then [92, 34]
  else if c = 92 then [92, 92]
  else if c = 10 then [92, 110]
  else if c = 13 then [92, 114]
  else if c = 9 then [92, 116]
  else if c = 12 then [92, 102]
  else if c = 8 then [92, 98]
  else if 32 ≤ c ∧ c ≤ 126 then [c]
  else if c < 0x10000 then uEsc c
  else uEsc (0xD800 + (c - 0x10000) / 1024) ++ uEsc (0xDC00 + (c - 0x10000) % 1024)

def dumpStr (s : Str) : Str := 34 :: (s.flatMap escChar ++ [34])

/-- Decimal digits of a natural number. -/
def natDigits (n : Nat) : Str := if n < 10 then [48 + n] else natDigits (n / 10) ++ [48 + n % 10]

def dumpInt (n : Int) : Str := if n < 0 then 45 :: natDigits n.natAbs else natDigits n.natAbs

def dumpFrac : Option Str → Str
  | some f => 46 :: f
  | none => []

def dumpExp : Option (Nat × Option Nat × Str) → Str
  | some (e, some g, d) => e :: g :: d
  | some (e, none, d) => e :: d
  | none => []

/-- `float.__repr__` -/
def dumpNum (x : Num) : Str := (if x.neg then [45] else []) ++ (x.int ++ (dumpFrac x.frac ++ dumpExp x.exp))

mutual
/-- `json.dumps(v)`: separators `", "` and `": "`, everything outside ASCII escaped. -/
def dumps : J → Str
  | .null => [110, 117, 108, 108]
  | .bool true => [116, 114, 117, 101]
  | .bool false => [102, 97, 108, 115, 101]
  | .int n => dumpInt n
  | .flt x => dumpNum x
  | .str s => dumpStr s
  | .arr l => 91 :: (dumpElems l ++ [93])
  | .obj l => 123 :: (dumpMembers l ++ [125])

def dumpElems : List J → Str
  | [] => []
  | x :: xs => dumps x ++ (if xs.isEmpty then [] else 44 :: 32 :: dumpElems xs)

def dumpMembers : List (Str × J) → Str
  | [] => []
  | (k, x) :: xs => dumpStr k ++ (58 :: 32 :: (dumps x ++ (if xs.isEmpty then [] else 44 :: 32 :: dumpMembers xs)))
end

/-! ## Reading -/

/-- White space between tokens. -/
def skipWs : Str → Str
  | c :: r => if c = 32 ∨ c = 9 ∨ c = 10 ∨ c = 13 then skipWs r else c :: r
  | [] => []

def hexVal (c : Nat) : Option Nat :=
  if 48 ≤ c ∧ c ≤ 57 then some (c - 48)
  else if 97 ≤ c ∧ c ≤ 102 then some (c - 87)
  else if 65 ≤ c ∧ c ≤ 70 then some (c - 55)
  else none

def hex4 (a b c d : Nat) : Option Nat := do
  let a ← hexVal a
  let b ← hexVal b
  let c ← hexVal c
  let d ← hexVal d
  pure (((a * 16 + b) * 16 + c) * 16 + d)

/-- What `\x` stands for. -/
def unesc (c : Nat) : Option Nat :=
  if c = 34 ∨ c = 92 ∨ c = 47 then some c
  else if c = 98 then some 8
  else if c = 102 then some 12
  else if c = 110 then some 10
  else if c = 114 then some 13
  else if c = 116 then some 9
  else none

/-- `json.decoder.scanstring` after the opening quote, before surrogates are joined: the characters, with a flag on
those written as `\uXXXX`, and what follows the closing quote. -/
def scanStr : Str → Option (List (Bool × Nat) × Str)
  | [] => none
  | 34 :: r => some ([], r)
  | 92 :: 117 :: a :: b :: c :: d :: r =>
    match hex4 a b c d with
    | none => none
    | some n => (scanStr r).map (fun p => ((true, n) :: p.1, p.2))
  | 92 :: c :: r =>
    match unesc c with
    | none => none
    | some n => (scanStr r).map (fun p => ((false, n) :: p.1, p.2))
  | c :: r => if c < 32 ∨ c = 92 then none else (scanStr r).map (fun p => ((false, c) :: p.1, p.2))

def isHigh (n : Nat) : Bool := 0xD800 ≤ n && n ≤ 0xDBFF
def isLow (n : Nat) : Bool := 0xDC00 ≤ n && n ≤ 0xDFFF

/-- An escaped high surrogate directly before an escaped low one makes one character. -/
def joinSur : List (Bool × Nat) → Str
  | [] => []
  | [(_, a)] => [a]
  | (ea, a) :: (eb, b) :: r =>
    if ea && eb && isHigh a && isLow b then (0x10000 + (a - 0xD800) * 1024 + (b - 0xDC00)) :: joinSur r
    else a :: joinSur ((eb, b) :: r)

def readStr (s : Str) : Option (Str × Str) := (scanStr s).map (fun p => (joinSur p.1, p.2))

def isDigit (c : Nat) : Bool := 48 ≤ c && c ≤ 57

/-- `-?(?:0|[1-9]\d*)` without the sign. -/
def readIntPart : Str → Option (Str × Str)
  | [] => none
  | c :: r =>
    if c = 48 then some ([48], r)
    else if 49 ≤ c ∧ c ≤ 57 then some (c :: r.takeWhile isDigit, r.dropWhile isDigit)
    else none

/-- `(\.\d+)?` -/
def readFrac : Str → Option Str × Str
  | 46 :: c :: r => if isDigit c then (some (c :: r.takeWhile isDigit), r.dropWhile isDigit) else (none, 46 :: c :: r)
  | r => (none, r)

/-- `([eE][-+]?\d+)?` -/
def readExp : Str → Option (Nat × Option Nat × Str) × Str
  | [] => (none, [])
  | e :: r =>
    if e = 101 ∨ e = 69 then
      match r with
      | [] => (none, e :: r)
      | g :: r' =>
        if isDigit g then (some (e, none, g :: r'.takeWhile isDigit), r'.dropWhile isDigit)
        else if g = 45 ∨ g = 43 then
          match r' with
          | c :: r'' =>
            if isDigit c then (some (e, some g, c :: r''.takeWhile isDigit), r''.dropWhile isDigit) else (none, e :: r)
          | [] => (none, e :: r)
        else (none, e :: r)
    else (none, e :: r)

def readNum (s : Str) : Option (Num × Str) :=
  let neg := s.head? == some 45
  match readIntPart (if neg then s.tail else s) with
  | none => none
  | some (i, r) =>
    let f := readFrac r
    let e := readExp f.2
    some (⟨neg, i, f.1, e.1⟩, e.2)

def digitsVal (s : Str) : Nat := s.foldl (fun a c => a * 10 + (c - 48)) 0

/-- `int(...)` if there is neither fraction nor exponent, `float(...)` otherwise. -/
def numVal (x : Num) : J :=
  match x.frac, x.exp with
  | none, none => .int (if x.neg then -(digitsVal x.int : Int) else digitsVal x.int)
  | _, _ => .flt x

/-- `d[k] = v`: the place of the first, the value of the last. -/
def dictSet (d : List (Str × J)) (k : Str) (v : J) : List (Str × J) :=
  match d with
  | [] => [(k, v)]
  | (k', v') :: r => if k' = k then (k, v) :: r else (k', v') :: dictSet r k v

/-- `dict(pairs)` -/
def dictOfPairs (l : List (Str × J)) : List (Str × J) := l.foldl (fun d p => dictSet d p.1 p.2) []

mutual
/-- `json.scanner.scan_once`; the fuel bounds the depth of calls. `none` is `JSONDecodeError`. -/
def readVal : Nat → Str → Option (J × Str)
  | 0, _ => none
  | f + 1, s =>
    match s with
    | 34 :: r => (readStr r).map (fun p => (.str p.1, p.2))
    | 123 :: r =>
      match skipWs r with
      | 125 :: r' => some (.obj [], r')
      | r' => (readMembers f r').map (fun p => (.obj (dictOfPairs p.1), p.2))
    | 91 :: r =>
      match skipWs r with
      | 93 :: r' => some (.arr [], r')
      | r' => (readElems f r').map (fun p => (.arr p.1, p.2))
    | 110 :: 117 :: 108 :: 108 :: r => some (.null, r)
    | 116 :: 114 :: 117 :: 101 :: r => some (.bool true, r)
    | 102 :: 97 :: 108 :: 115 :: 101 :: r => some (.bool false, r)
    | s => (readNum s).map (fun p => (numVal p.1, p.2))

/-- `json.decoder.JSONArray` after the bracket, for at least one element. -/
def readElems : Nat → Str → Option (List J × Str)
  | 0, _ => none
  | f + 1, s =>
    match readVal f s with
    | none => none
    | some (v, r) =>
      match skipWs r with
      | 93 :: r' => some ([v], r')
      | 44 :: r' => (readElems f (skipWs r')).map (fun p => (v :: p.1, p.2))
      | _ => none

/-- `json.decoder.JSONObject` after the brace, for at least one member. -/
def readMembers : Nat → Str → Option (List (Str × J) × Str)
  | 0, _ => none
  | f + 1, s =>
    match s with
    | 34 :: s' =>
      match readStr s' with
      | none => none
      | some (k, r) =>
        match skipWs r with
        | 58 :: r' =>
          match readVal f (skipWs r') with
          | none => none
          | some (v, r) =>
            match skipWs r with
            | 125 :: r' => some ([(k, v)], r')
            | 44 :: r' => (readMembers f (skipWs r')).map (fun p => ((k, v) :: p.1, p.2))
            | _ => none
        | _ => none
    | _ => none
end

/-- `json.loads(s)` -/
def loads (s : Str) : Option J :=
  match readVal (s.length + 1) (skipWs s) with
  | none => none
  | some (v, r) => if skipWs r = [] then some v else none

/-! ## Well-formed values -/

/-- A python string that survives: code points, with no high surrogate directly before a low one. -/
def Str.Wf : Str → Prop
  | [] => True
  | [a] => a < 0x110000
  | a :: b :: r => a < 0x110000 ∧ ¬(isHigh a = true ∧ isLow b = true) ∧ Str.Wf (b :: r)

def Digits (s : Str) : Prop := s ≠ [] ∧ ∀ c ∈ s, isDigit c = true

/-- The texts of floats. -/
structure Num.Wf (x : Num) : Prop where
  int : Digits x.int
  lead : x.int = [48] ∨ x.int.head? ≠ some 48
  frac : ∀ f, x.frac = some f → Digits f
  exp : ∀ e g d, x.exp = some (e, g, d) → (e = 101 ∨ e = 69) ∧ Digits d ∧ ∀ c, g = some c → c = 45 ∨ c = 43
  float : x.frac ≠ none ∨ x.exp ≠ none

mutual
def J.Wf : J → Prop
  | .flt x => x.Wf
  | .str s => Str.Wf s
  | .arr l => elemsWf l
  | .obj l => (l.map Prod.fst).Nodup ∧ membersWf l
  | _ => True
def elemsWf : List J → Prop
  | [] => True
  | x :: xs => x.Wf ∧ elemsWf xs
def membersWf : List (Str × J) → Prop
  | [] => True
  | (k, x) :: xs => Str.Wf k ∧ x.Wf ∧ membersWf xs
end

end Verif.Json
