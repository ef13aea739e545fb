import Verif.Compare.Model

/-!
# What can be asked of the result of a comparison

The methods of `ComparisonResult`, `comparison/_internal.py` 75-223, other than `excluded`, which is in `Compare/Model`. `bool(r)` is
`Res.equal`. The texts of messages are left out.
-/

namespace Verif.Compare

variable {P : Type}

/-- `failing_attributes`, lines 163-168. -/
def Res.failingAttributes (r : Res P) : List String :=
  r.children.filterMap (fun c => if c.equal then none else c.attr)

/-- `failing_keys`, lines 170-175. -/
def Res.failingKeys (r : Res P) : List Key :=
  r.children.filterMap (fun c => if c.equal then none else c.key)

/-- `subcomparison_for_attribute` and `r.name`, lines 201-213: `none` is `KeyError` of the method and `AttributeError` of `r.name`. For
names that results do not have themselves, as `children`. -/
def Res.subAttr (r : Res P) (name : String) : Option (Res P) := r.children.find? (fun c => c.attr == some name)

/-- `subcomparison_for_key` and `r[key]`, lines 215-223: `none` is `KeyError`. -/
def Res.subKey (r : Res P) (k : Key) : Option (Res P) := r.children.find? (fun c => c.key == some k)

/-- The sign before a message. -/
inductive Mark where
  | circle
  | tick
  | cross
deriving DecidableEq, Repr

/-- Lines 180-185. `str(r)` is the sign and the message of `r`, and then the same of its children, with more space before them (lines
177-196). -/
def Res.mark (r : Res P) : Mark := if r.excluded then .circle else if r.equal then .tick else .cross

/-- `failing_keys` of the result for two iterators. -/
def IterRes.failingKeys (r : IterRes P) : List Key :=
  r.children.filterMap (fun c => if c.equal then none else c.key)

/-- `r[i]` of the result for two iterators. -/
def IterRes.subKey (r : IterRes P) (i : Nat) : Option (Res P) := r.children.find? (fun c => c.key == some (.idx i))

end Verif.Compare
