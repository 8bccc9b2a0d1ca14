import Verif.Model.Json

/-! Vocabulary of C77. -/

namespace Verif
variable {F : Type}

/-- A Unicode character that UTF-8 can encode. -/
def validRune (r : Nat) : Prop := r < 0xD800 ∨ (0xE000 ≤ r ∧ r < 0x110000)

/-- A text: the UTF-8 encoding of some characters. -/
def IsText (s : GoStr) : Prop := ∃ rs : List Nat, (∀ r ∈ rs, validRune r) ∧ s = rs.flatMap utf8

/-- The same map, in a possibly different iteration order. -/
def SameMap {κ α : Type} [DecidableEq κ] (m m' : AMap κ α) : Prop := m'.Perm m

/-- Every map has at most one entry per key. -/
def KeysOnce {κ α : Type} (m : List (κ × α)) : Prop := (m.map (·.1)).Nodup

/-- A map as Go has it, whose names are texts. -/
def Named {α : Type} (m : AMap GoStr α) : Prop := KeysOnce m ∧ ∀ e ∈ m, IsText e.1

/-- All values are finite numbers. -/
def AllFinite [GoFloat F] (m : AMap GoStr F) : Prop := ∀ e ∈ m, finite e.2 = true

/-- An `int`. -/
def IsInt64 (n : Int) : Prop := -2 ^ 63 ≤ n ∧ n < 2 ^ 63

/-- The names in a one-hot encoder are texts, its categories are ints, its maps are maps. -/
structure OneHotEncoder.Named (e : OneHotEncoder) : Prop where
  cols : ∀ c ∈ e.catCols, IsText c
  news : ∀ c ∈ e.newCols, IsText c
  categories : Verif.Named e.categories
  codes : ∀ x ∈ e.categories, KeysOnce x.2 ∧ ∀ y ∈ x.2, IsInt64 y.1 ∧ IsText y.2
  fallback : Verif.Named e.fallback
  names : ∀ x ∈ e.fallback, IsText x.2.1 ∧ IsText x.2.2

/-- The names in a scaler are texts. -/
def Scaler.Named (sc : Scaler F) : Prop := Verif.Named sc.shift ∧ Verif.Named sc.scale

/-- The numbers in a scaler are finite. -/
def Scaler.Finite [GoFloat F] (sc : Scaler F) : Prop := AllFinite sc.shift ∧ AllFinite sc.scale

end Verif
