import Verif.Compare.Model

/-!
# Options written as expressions

Model of `comparison/options.py` 45-222: what python makes of expressions as `ExpectedDifference.origin_timestamp >= TimeOffset(1)`, with
the rules of python for operators that the left operand does not have (Language Reference 3.3.1 and 3.3.8).

Simplifications: expected differences are compared with numbers (a time offset is its nanoseconds). A test is a function of the difference,
`none` being an exception.
-/

namespace Verif.Compare

/-- The comparison operators. -/
inductive Cmp where
  | eq
  | ne
  | lt
  | le
  | gt
  | ge
deriving DecidableEq, Repr

/-- What they say of numbers. -/
def Cmp.test : Cmp → Int → Int → Bool
  | .eq, x, y => decide (x = y)
  | .ne, x, y => decide (x ≠ y)
  | .lt, x, y => decide (x < y)
  | .le, x, y => decide (x ≤ y)
  | .gt, x, y => decide (x > y)
  | .ge, x, y => decide (x ≥ y)

/-- The method of the right operand that python tries if the left one does not have the operator. -/
def Cmp.reflected : Cmp → Cmp
  | .eq => .eq
  | .ne => .ne
  | .lt => .gt
  | .le => .ge
  | .gt => .lt
  | .ge => .le

/-- Values of expressions. -/
inductive OVal where
  /-- the object `Exclude` -/
  | excluder
  /-- the object `Include` -/
  | includer
  /-- `_ExpectedDifference(path)` -/
  | expected (path : String)
  /-- `ComparisonExclude(path)` -/
  | exclude (path : String)
  /-- `ComparisonInclude(path)` -/
  | incl (path : String)
  /-- `ComparisonExpectDifferenceMatches(path, matcher, …)` -/
  | matches (path : String) (matcher : Int → Option Bool)
  | num (v : Int)

inductive OErr where
  | type
  | value
  | attribute
  /-- not modelled: comparisons that do not make options -/
  | outside
deriving DecidableEq, Repr

/-- `v.name`, for names that options do not have themselves: lines 48-118. Options and numbers have no such attribute. -/
def getAttr (name : String) : OVal → Except OErr OVal
  | .excluder => .ok (.exclude ("{}." ++ name))
  | .includer => .ok (.incl ("{}." ++ name))
  | .expected p => .ok (.expected (p ++ "." ++ name))
  | _ => .error .attribute

/-- `l OP r`, lines 65-87. -/
def compareOp (op : Cmp) : OVal → OVal → Except OErr OVal
  | .expected p, .num v => .ok (.matches p (fun x => some (op.test x v)))
  | .num v, .expected p => .ok (.matches p (fun x => some (op.reflected.test x v)))
  | _, _ => .error .outside

/-- `l & r` and `l | r`, lines 89-113. The test of the new option calls `self.matcher`, which by `__getattr__` (115-118) is another
`_ExpectedDifference`, and these cannot be called. The other classes have no such methods. -/
def combineOp : OVal → OVal → Except OErr OVal
  | .expected p, .matches q _ => if q ≠ p then .error .value else .ok (.matches p (fun _ => none))
  | .expected _, _ => .error .value
  | _, _ => .error .type

/-- Expressions. -/
inductive OExp where
  | exclude
  | incl
  /-- `ExpectedDifference` -/
  | expected
  | num (v : Int)
  | attr (e : OExp) (name : String)
  | cmp (op : Cmp) (l r : OExp)
  /-- `l OP m OP' r`, which is `l OP m and m OP' r` -/
  | chain (op op' : Cmp) (l m r : OExp)
  /-- `l and r` -/
  | both (l r : OExp)
  | band (l r : OExp)
  | bor (l r : OExp)

/-- Whether a value is true: all objects are, but zero is not. -/
def OVal.truthy : OVal → Bool
  | .num v => v != 0
  | _ => true

def OExp.eval : OExp → Except OErr OVal
  | .exclude => .ok .excluder
  | .incl => .ok .includer
  | .expected => .ok (.expected "{}")
  | .num v => .ok (.num v)
  | .attr e n => do getAttr n (← e.eval)
  | .cmp op l r => do
    let x ← l.eval
    let y ← r.eval
    compareOp op x y
  | .chain op op' l m r => do
    let x ← l.eval
    let y ← m.eval
    let first ← compareOp op x y
    if first.truthy then
      let z ← r.eval
      compareOp op' y z
    else return first
  | .both l r => do
    let x ← l.eval
    if x.truthy then r.eval else return x
  | .band l r => do
    let x ← l.eval
    let y ← r.eval
    combineOp x y
  | .bor l r => do
    let x ← l.eval
    let y ← r.eval
    combineOp x y

end Verif.Compare
