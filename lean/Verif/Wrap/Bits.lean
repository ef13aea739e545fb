import Verif.Bytes

/-!
# Reading bits

The H.264 parser reads its fields through the library `bitstring` (`BitStream.read('uint:n')`, `read('ue')`, `read('se')`).
That library is not part of the repository; the three reads are modelled from its documentation. Parsers are written as
programs over these reads so that what holds of every program has to be shown once.
-/

namespace Verif.Wrap

open Verif

/-- The bits of a byte string, most significant first (`BitStream(bytes=…)`). -/
def bitsOf (b : Bytes) : List Bool := b.flatMap (fun x => (List.range 8).map (fun i => x.toNat.testBit (7 - i)))

/-- A number from bits, most significant first. -/
def natOf (l : List Bool) : Nat := l.foldl (fun a x => 2 * a + x.toNat) 0

/-- The result of a read: a value with what is left, `bitstring.ReadError` (not enough bits), or `ValueError`. -/
inductive Res (α : Type)
  | ok (a : α) (rest : List Bool)
  | short
  | invalid
deriving DecidableEq, Repr

/-- `read('uint:n')`; a width of zero is refused. -/
def readU (n : Nat) (l : List Bool) : Res Nat :=
  if n = 0 then .invalid else if l.length < n then .short else .ok (natOf (l.take n)) (l.drop n)

/-- The number of zero bits before the first one, and what follows that one. -/
def leadingZeros : List Bool → Option (Nat × List Bool)
  | [] => none
  | true :: r => some (0, r)
  | false :: r => (leadingZeros r).map (fun x => (x.1 + 1, x.2))

/-- `read('ue')`: `k` zeros, a one, and `k` more bits. -/
def readUe (l : List Bool) : Res Nat :=
  match leadingZeros l with
  | none => .short
  | some (k, r) => if r.length < k then .short else .ok (2 ^ k - 1 + natOf (r.take k)) (r.drop k)

/-- The signed number of an unsigned code: 0, 1, -1, 2, -2, … -/
def signed (n : Nat) : Int := if n % 2 = 0 then -((n + 1) / 2 : Nat) else ((n + 1) / 2 : Nat)

/-- `read('se')` -/
def readSe (l : List Bool) : Res Int :=
  match readUe l with
  | .ok n r => .ok (signed n) r
  | .short => .short
  | .invalid => .invalid

/-- A parser: a sequence of reads, each depending on what was read before. -/
inductive Prog (α : Type) : Type
  | ret (a : α)
  | fail
  | u (n : Nat) (k : Nat → Prog α)
  | ue (k : Nat → Prog α)
  | se (k : Int → Prog α)

def Prog.bind {α β : Type} (p : Prog α) (g : α → Prog β) : Prog β :=
  match p with
  | .ret a => g a
  | .fail => .fail
  | .u n k => .u n (fun x => (k x).bind g)
  | .ue k => .ue (fun x => (k x).bind g)
  | .se k => .se (fun x => (k x).bind g)

instance : Monad Prog where
  pure := .ret
  bind := Prog.bind

/-- Running a parser on bits. -/
def Prog.run {α : Type} : Prog α → List Bool → Res α
  | .ret a, l => .ok a l
  | .fail, _ => .invalid
  | .u n k, l => match readU n l with
    | .ok a r => (k a).run r
    | .short => .short
    | .invalid => .invalid
  | .ue k, l => match readUe l with
    | .ok a r => (k a).run r
    | .short => .short
    | .invalid => .invalid
  | .se k, l => match readSe l with
    | .ok a r => (k a).run r
    | .short => .short
    | .invalid => .invalid

def uint (n : Nat) : Prog Nat := .u n .ret
def ue : Prog Nat := .ue .ret
def se : Prog Int := .se .ret
def flag : Prog Bool := .u 1 (fun x => .ret (x != 0))

/-- `raise ValueError` unless the condition holds. -/
def require (c : Bool) : Prog Unit := if c then .ret () else .fail

/-- `for _ in range(n)` -/
def times : Nat → Prog Unit → Prog Unit
  | 0, _ => .ret ()
  | n + 1, p => p.bind (fun _ => times n p)

/-- `if c: …` -/
def when' (c : Bool) (p : Prog Unit) : Prog Unit := if c then p else .ret ()

/-- The value read if the condition holds, a default otherwise. -/
def optional {α : Type} (c : Bool) (p : Prog α) (d : α) : Prog α := if c then p else .ret d

end Verif.Wrap
