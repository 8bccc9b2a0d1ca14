import Verif.Model.Asserts
import Verif.Props.Demo

/-! C76: the assertions say what their names say, or not. -/

namespace Verif
variable {F : Type}

/-- The assertion holds: it returns true and reports nothing. -/
def Asserted.Holds (a : Asserted) : Prop := a.ret = true ∧ a.errors = 0

/-- The assertion fails: it returns false and reports one error. -/
def Asserted.Fails (a : Asserted) : Prop := a.ret = false ∧ a.errors = 1

/-- The assertion tells whether `p` is true. -/
def Asserted.Decides (a : Asserted) (p : Prop) : Prop := (p → a.Holds) ∧ (¬ p → a.Fails)

theorem unless_decides {b : Bool} {p : Prop} (h : b = false ↔ p) : (Asserted.unless b).Decides p := by
  cases b with
  | false => exact ⟨fun _ => ⟨rfl, rfl⟩, fun hn => absurd (h.1 rfl) hn⟩
  | true => exact ⟨fun hp => absurd (h.2 hp) (by decide), fun _ => ⟨rfl, rfl⟩⟩

/-- **C76** (values). The assertions on strings, ints, bools and errors hold exactly when the claim in their name is true, and
report exactly one error otherwise. -/
theorem C76_values :
    (∀ a b, (assertStringEquals a b).Decides (a = b)) ∧ (∀ a b, (assertStringNotEquals a b).Decides (a ≠ b)) ∧
    (∀ a b, (assertIntEquals a b).Decides (a = b)) ∧ (∀ a b, (assertIntNotEquals a b).Decides (a ≠ b)) ∧
    (∀ b, (assertTrue b).Decides (b = true)) ∧ (∀ b, (assertFalse b).Decides (b = false)) ∧
    (∀ e, (assertNoError e).Decides (e = none)) := by
  refine ⟨fun a b => unless_decides ?_, fun a b => unless_decides ?_, fun a b => unless_decides ?_, fun a b => unless_decides ?_,
    fun b => unless_decides ?_, fun b => unless_decides Iff.rfl, fun e => unless_decides ?_⟩
  · rw [decide_eq_false_iff_not, Classical.not_not]
  · rw [decide_eq_false_iff_not]
  · rw [decide_eq_false_iff_not, Classical.not_not]
  · rw [decide_eq_false_iff_not]
  · cases b <;> simp
  · cases e <;> simp

/-- **C76** (slices). The assertions on slices of ints, bools and, in order, of strings hold exactly when the slices are the
same, a nil slice being different from an empty one. -/
theorem C76_slices :
    (∀ a b, (assertIntSliceEquals a b).Decides (a = b)) ∧ (∀ a b, (assertIntSliceNotEquals a b).Decides (a ≠ b)) ∧
    (∀ a b, (assertBoolSliceEquals a b).Decides (a = b)) ∧ (∀ a b, (assertStringSliceEquals a b true).Decides (a = b)) := by
  refine ⟨fun a b => unless_decides ?_, fun a b => unless_decides ?_, fun a b => unless_decides ?_, fun a b => ?_⟩
  · simp [deepEqual]
  · simp [deepEqual]
  · simp [deepEqual]
  · unfold assertStringSliceEquals
    by_cases h : a = b
    · exact ⟨fun _ => ⟨by simp [deepEqual, h], by simp [deepEqual, h]⟩, fun hn => absurd h hn⟩
    · exact ⟨fun hp => absurd hp h, fun _ => ⟨by simp [deepEqual, h], by simp [deepEqual, h]⟩⟩

/-- **C76** (any order). Without the order, `AssertStringSliceEquals` holds exactly when the slices have the same set of
strings. It does not count them: see `C76_counts_refuted`. -/
theorem C76_string_sets_partial (a b : Option (List GoStr)) :
    (assertStringSliceEquals a b false).Decides (∀ x, x ∈ elems a ↔ x ∈ elems b) := by
  have key : (!((elems a).all fun x => (elems b).contains x) || !((elems b).all fun x => (elems a).contains x)) = false ↔
      ∀ x, x ∈ elems a ↔ x ∈ elems b := by
    simp only [Bool.or_eq_false_iff, Bool.not_eq_false', List.all_eq_true, List.contains_iff_mem]
    constructor
    · rintro ⟨h1, h2⟩ x
      exact ⟨h1 x, h2 x⟩
    · intro h
      exact ⟨fun x hx => (h x).1 hx, fun x hx => (h x).2 hx⟩
  unfold assertStringSliceEquals
  simp only [Bool.false_eq_true, if_false]
  generalize (!((elems a).all fun x => (elems b).contains x) || !((elems b).all fun x => (elems a).contains x)) = e at key ⊢
  cases e with
  | false => exact ⟨fun _ => ⟨rfl, rfl⟩, fun hn => absurd (key.1 rfl) hn⟩
  | true => exact ⟨fun hp => absurd (key.2 hp) (by decide), fun _ => ⟨rfl, rfl⟩⟩

/-- **C76** (floats). `AssertFloatEquals` fails exactly when the value is below `expected - 0.01` or above `expected + 0.01`. -/
theorem C76_float_partial [GoFloat F] (tol actual expected : F) :
    (assertFloatEquals tol actual expected).Decides
      (GoFloat.lt actual (GoFloat.sub expected tol) = false ∧ GoFloat.lt (GoFloat.add expected tol) actual = false) :=
  unless_decides (by rw [Bool.or_eq_false_iff])

/-- C76 is false of NaN: when comparisons with NaN are false, as they are for floats, NaN is accepted for any expected value. -/
theorem C76_nan_refuted [GoFloat F] (hn : ∀ x : F, GoFloat.lt x GoFloat.nan = false ∧ GoFloat.lt GoFloat.nan x = false)
    (tol expected : F) : (assertFloatEquals tol GoFloat.nan expected).Holds :=
  (C76_float_partial tol GoFloat.nan expected).1 ⟨(hn _).2, (hn _).1⟩

/-- **C76** (slices of floats). `AssertFloatSliceEquals` returns true, and reports nothing, exactly when the slices are deeply
equal. Otherwise, when the lengths differ one error is reported, and when they do not, one for every element that
`AssertFloatEquals` refuses. -/
theorem C76_float_slices_partial [GoFloat F] (tol : F) (same : Bool) (a b : Option (List F)) :
    ((assertFloatSliceEquals tol same a b).ret = true ↔ deepEqualFloats same a b = true) ∧
    (deepEqualFloats same a b = true → (assertFloatSliceEquals tol same a b).Holds) ∧
    ((elems a).length ≠ (elems b).length → (assertFloatSliceEquals tol same a b).Fails) ∧
    (deepEqualFloats same a b = false → (elems a).length = (elems b).length →
      (assertFloatSliceEquals tol same a b).errors = ((elems a).zip (elems b)).countP fun p =>
        GoFloat.lt p.1 (GoFloat.sub p.2 tol) || GoFloat.lt (GoFloat.add p.2 tol) p.1) := by
  have hlen : (elems a).length ≠ (elems b).length → deepEqualFloats same a b = false := by
    intro h
    cases a <;> cases b <;> simp_all [deepEqualFloats, elems]
  have hsum : ∀ l : List (F × F), (l.map fun p => (assertFloatEquals tol p.1 p.2).errors).sum = l.countP fun p =>
      GoFloat.lt p.1 (GoFloat.sub p.2 tol) || GoFloat.lt (GoFloat.add p.2 tol) p.1 := by
    intro l
    induction l with
    | nil => rfl
    | cons p l ih =>
      rw [List.map_cons, List.sum_cons, ih, List.countP_cons]
      unfold assertFloatEquals Asserted.unless
      split <;> simp <;> omega
  unfold assertFloatSliceEquals
  cases hd : deepEqualFloats same a b with
  | true =>
    refine ⟨⟨fun _ => rfl, fun _ => rfl⟩, fun _ => ⟨rfl, rfl⟩, ?_, fun h => by cases h⟩
    intro h; rw [hlen h] at hd; cases hd
  | false =>
    simp only [Bool.not_false, if_true]
    by_cases hl : (elems a).length = (elems b).length
    · rw [if_neg (by simpa using hl)]
      exact ⟨⟨by simp, by simp⟩, by simp, fun h => absurd hl h, fun _ _ => hsum _⟩
    · rw [if_pos hl]
      exact ⟨⟨by simp, by simp⟩, by simp, fun _ => ⟨rfl, rfl⟩, fun _ h => absurd h hl⟩

/-- C76 is false of slices of floats that are close but not equal: the assertion returns false, but reports nothing. -/
theorem C76_silent_refuted [GoFloat F] {tol : F} {a b : List F} (hl : a.length = b.length)
    (hne : ∃ p ∈ a.zip b, GoFloat.eq p.1 p.2 = false)
    (hclose : ∀ p ∈ a.zip b, GoFloat.lt p.1 (GoFloat.sub p.2 tol) = false ∧ GoFloat.lt (GoFloat.add p.2 tol) p.1 = false) :
    assertFloatSliceEquals tol false (some a) (some b) = ⟨false, 0⟩ := by
  have hd : deepEqualFloats false (some a) (some b) = false := by
    obtain ⟨p, hp, he⟩ := hne
    simp only [deepEqualFloats, Bool.false_or, Bool.and_eq_false_iff, List.all_eq_false]
    right
    exact ⟨p, hp, by simp [he]⟩
  unfold assertFloatSliceEquals
  rw [hd]
  simp only [Bool.not_false, if_true, elems, Option.getD_some, hl, ne_eq, not_true_eq_false, if_false]
  congr 1
  have hz : ∀ l : List (F × F), (∀ p ∈ l, (assertFloatEquals tol p.1 p.2).errors = 0) →
      (l.map fun p => (assertFloatEquals tol p.1 p.2).errors).sum = 0 := by
    intro l
    induction l with
    | nil => exact fun _ => rfl
    | cons p l ih =>
      intro hl
      rw [List.map_cons, List.sum_cons, hl p (by simp), ih fun q hq => hl q (List.mem_cons_of_mem _ hq)]
  exact hz _ fun p hp => ((C76_float_partial tol p.1 p.2).1 (hclose p hp)).2

namespace Demo

/-- C76 is false of repeated strings: `a, a, b` passes for `a, b, b`. -/
theorem C76_counts_refuted : (assertStringSliceEquals (some [b!"a", b!"a", b!"b"]) (some [b!"a", b!"b", b!"b"]) false).Holds := by
  unfold Asserted.Holds; decide

-- a nil slice is not an empty one
example : (assertIntSliceEquals none (some [])).Fails := by unfold Asserted.Fails; decide

-- close floats: 5 for 6, with a tolerance of 2
example : assertFloatSliceEquals (F := Int) 2 false (some [5, 1]) (some [6, 1]) = ⟨false, 0⟩ :=
  C76_silent_refuted rfl ⟨(5, 6), by simp, by decide⟩ (by decide)

end Demo

end Verif
