import Verif.Go.Basic

/-! Model of utils/asserts.go. An assertion returns a bool and reports a number of errors to `t`; the messages are left out. -/

namespace Verif
variable {F : Type}

/-- What an assertion does: the returned value, and the number of calls of `t.Errorf`. -/
structure Asserted where
  ret : Bool
  errors : Nat
  deriving DecidableEq, Repr

/-- `t.Errorf(...); return false` or `return true`. -/
def Asserted.unless (bad : Bool) : Asserted := if bad then ⟨false, 1⟩ else ⟨true, 0⟩

/-- asserts.go:8-14 `AssertStringEquals`. -/
def assertStringEquals (actual expected : GoStr) : Asserted := .unless (decide (actual ≠ expected))

/-- asserts.go:16-22 `AssertStringNotEquals`. -/
def assertStringNotEquals (actual notExpected : GoStr) : Asserted := .unless (decide (actual = notExpected))

/-- asserts.go:24-30 `AssertIntEquals`. -/
def assertIntEquals (actual expected : Int) : Asserted := .unless (decide (actual ≠ expected))

/-- asserts.go:32-38 `AssertIntNotEquals`. -/
def assertIntNotEquals (actual notExpected : Int) : Asserted := .unless (decide (actual = notExpected))

/-- asserts.go:40-46 `AssertFloatEquals`; `tol` is 0.01. -/
def assertFloatEquals [GoFloat F] (tol actual expected : F) : Asserted :=
  .unless (GoFloat.lt actual (GoFloat.sub expected tol) || GoFloat.lt (GoFloat.add expected tol) actual)

/-- asserts.go:48-54 `AssertFalse`. -/
def assertFalse (value : Bool) : Asserted := .unless value

/-- asserts.go:56-58 `AssertTrue`. -/
def assertTrue (value : Bool) : Asserted := assertFalse (!value)

/-- asserts.go:60-66 `AssertNoError`; `none` is a nil error. -/
def assertNoError (err : Option GoStr) : Asserted := .unless err.isSome

/-- `reflect.DeepEqual` of two slices of strings, ints or bools; `none` is a nil slice, which is not deeply equal to an empty one. -/
def deepEqual {α : Type} [DecidableEq α] (a b : Option (List α)) : Bool := decide (a = b)

/-- `reflect.DeepEqual` of two slices of floats. `same`: they have the same first element in memory (and then they are
equal if they are equally long); otherwise the elements are compared with `==`. -/
def deepEqualFloats [GoFloat F] (same : Bool) (a b : Option (List F)) : Bool :=
  match a, b with
  | none, none => true
  | none, some _ => false
  | some _, none => false
  | some a, some b => decide (a.length = b.length) && (same || (a.zip b).all fun p => GoFloat.eq p.1 p.2)

/-- The elements of a slice. -/
def elems {α : Type} (a : Option (List α)) : List α := a.getD []

/-- asserts.go:68-85 `AssertStringSliceEquals`. `ToStringSet` makes maps, compared as sets of keys. -/
def assertStringSliceEquals (actual expected : Option (List GoStr)) (orderMatters : Bool) : Asserted :=
  let err :=
    if orderMatters then !deepEqual actual expected
    else !((elems actual).all fun x => (elems expected).contains x) || !((elems expected).all fun x => (elems actual).contains x)
  ⟨!err, if err then 1 else 0⟩

/-- asserts.go:87-93 `AssertIntSliceEquals`. -/
def assertIntSliceEquals (actual expected : Option (List Int)) : Asserted := .unless (!deepEqual actual expected)

/-- asserts.go:95-101 `AssertIntSliceNotEquals`. -/
def assertIntSliceNotEquals (actual notExpected : Option (List Int)) : Asserted := .unless (deepEqual actual notExpected)

/-- asserts.go:103-115 `AssertFloatSliceEquals`. -/
def assertFloatSliceEquals [GoFloat F] (tol : F) (same : Bool) (actual expected : Option (List F)) : Asserted :=
  if !deepEqualFloats same actual expected then
    if (elems actual).length ≠ (elems expected).length then ⟨false, 1⟩
    else ⟨false, (((elems actual).zip (elems expected)).map fun p => (assertFloatEquals tol p.1 p.2).errors).sum⟩
  else ⟨true, 0⟩

/-- asserts.go:117-123 `AssertBoolSliceEquals`. -/
def assertBoolSliceEquals (actual expected : Option (List Bool)) : Asserted := .unless (!deepEqual actual expected)

end Verif
