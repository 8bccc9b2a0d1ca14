import Verif.Props.Access
import Verif.Props.Hash

/-! C81 (`CopyValuesToInterfaces`) and the hash function of C37. -/

namespace Verif
open scoped Demo
variable {F : Type}

/-! ### C37: the hash is 64-bit FNV-1a -/

/-- FNV-1a as its authors define it: start from the offset basis; for each byte, xor it into the low byte, then multiply by the
prime 2^40 + 2^8 + 0xb3 modulo 2^64. -/
def fnv1aOf (s : List UInt8) : Nat :=
  s.foldl (fun acc b => (acc ^^^ b.toNat) * (2 ^ 40 + 2 ^ 8 + 0xb3) % 2 ^ 64) 0xcbf29ce484222325

/-- C37: the int stored for a string is its 64-bit FNV-1a hash modulo 2^63 - 1. -/
theorem C37_hash_is_fnv (s : GoStr) : hashVal (Val.str s : Val F) = ((fnv1aOf s % (2 ^ 63 - 1) : Nat) : Int) := by
  have hm : maxInt = 2 ^ 63 - 1 := rfl
  have hp : (1099511628211 : UInt64).toNat = 2 ^ 40 + 2 ^ 8 + 0xb3 := by decide
  have h0 : (14695981039346656037 : UInt64).toNat = 0xcbf29ce484222325 := by decide
  have key : ∀ (s : GoStr) (acc : UInt64),
      (s.foldl (fun (acc : UInt64) (b : UInt8) => (acc ^^^ b.toUInt64) * 1099511628211) acc).toNat =
      s.foldl (fun acc b => (acc ^^^ b.toNat) * (2 ^ 40 + 2 ^ 8 + 0xb3) % 2 ^ 64) acc.toNat := by
    intro s
    induction s with
    | nil => intro acc; rfl
    | cons b s ih =>
      intro acc
      rw [List.foldl_cons, List.foldl_cons, ih, UInt64.toNat_mul, UInt64.toNat_xor, UInt8.toNat_toUInt64, hp]
  unfold hashVal fnv1a64 fnv1aOf
  simp only
  rw [key, hm, h0]

/-- Published values of the hash of "" and "foobar". -/
example : fnv1aOf [] = 0xcbf29ce484222325 ∧ fnv1aOf b!"foobar" = 0x85944171f73967e8 := by decide +kernel

/-! ### C81 -/

/-- The kind of column `CopyValuesToInterfaces` takes when several columns have the name: object, float, int, bool. -/
def ADF.exportKind {C : Type} (a : ADF C) (c : GoStr) : Option Kind :=
  [Kind.obj, .float, .int, .bool].find? fun k => (a.col k c).isSome

/-- C81: `CopyValuesToInterfaces(c)` returns the values shown in the column, one per row, in row order, whatever its type
(if several columns have the name: the object, float, int or bool column, in this order); it panics exactly if there is no
column of the name. -/
theorem C81_copyValues {df : DF} {h : Heap F} (wf : df.WF h) (c : GoStr) :
    ((abs h df).exportKind c = none ∧ df.copyValuesToInterfaces h c = .error .panic) ∨
    ∃ k vs, (abs h df).exportKind c = some k ∧ df.copyValuesToInterfaces h c = .ok vs ∧ (abs h df).col k c = some (vs.map some) ∧
      vs.length = (abs h df).nRows := by
  obtain ⟨N, h1, h2, _⟩ := wf.rect
  have one : ∀ {k : Kind} {s : Slice}, AMap.get (h.tab df.tab) (k, c) = some s → ∃ vs, gather h s df.rows = .ok vs ∧
      (abs h df).col k c = some (vs.map some) ∧ vs.length = (abs h df).nRows := by
    intro k s hs
    obtain ⟨vs, hvs⟩ := gather_ok (wf.slices _ _ hs) (is := df.rows) (fun i hi => by rw [h1 _ _ hs]; exact h2 i hi)
    have he := (gather_iff ..).1 hvs
    refine ⟨vs, hvs, by simp only [abs, hs, Option.map_some, he], ?_⟩
    have := congrArg List.length he
    simpa [abs, DF.numRows] using this.symm
  have hcol : ∀ k, ((abs h df).col k c).isSome = (AMap.get (h.tab df.tab) (k, c)).isSome := fun k => by simp [abs]
  unfold DF.copyValuesToInterfaces ADF.exportKind
  simp only [List.find?, hcol]
  cases ho : AMap.get (h.tab df.tab) (.obj, c) with
  | some s =>
    obtain ⟨vs, e1, e2, e3⟩ := one ho
    exact Or.inr ⟨.obj, vs, rfl, e1, e2, e3⟩
  | none =>
    cases hf : AMap.get (h.tab df.tab) (.float, c) with
    | some s =>
      obtain ⟨vs, e1, e2, e3⟩ := one hf
      exact Or.inr ⟨.float, vs, rfl, e1, e2, e3⟩
    | none =>
      cases hi : AMap.get (h.tab df.tab) (.int, c) with
      | some s =>
        obtain ⟨vs, e1, e2, e3⟩ := one hi
        exact Or.inr ⟨.int, vs, rfl, e1, e2, e3⟩
      | none =>
        cases hb : AMap.get (h.tab df.tab) (.bool, c) with
        | some s =>
          obtain ⟨vs, e1, e2, e3⟩ := one hb
          exact Or.inr ⟨.bool, vs, rfl, e1, e2, e3⟩
        | none => exact Or.inl ⟨rfl, rfl⟩

/-- C81 applies to a view with a repeated row. -/
example : okAnd (Demo.df.indexView [3, 1, 1] Demo.h) (fun r => okAnd (r.1.copyValuesToInterfaces r.2 b!"s") (fun vs =>
    decide (vs = [.nil, .str b!"v", .str b!"v"]))) = true := by decide +kernel

end Verif
