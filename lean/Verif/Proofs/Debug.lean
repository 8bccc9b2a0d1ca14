import Verif.Model.Debug
import Mathlib.Data.List.Basic
import Mathlib.Data.Nat.Bitwise

/-! The text of a data identifier. -/

namespace Verif

/-- The positions of the bits that are set. -/
def positions (v : Nat) : List Nat := (List.range 64).filter v.testBit

/-- Position `p < 64` in base 36: `0`, …, `9`, `a`, …, `z`, `10`, …, `19`, `1a`, …, `1r`. -/
def positionText (p : Nat) : GoStr :=
  (if p < 36 then [] else b!"1") ++ [b!"0123456789abcdefghijklmnopqrstuvwxyz".getD (p % 36) 0]

/-- A data identifier as it is shown: the positions between bars. -/
def dataUIDText (v : Nat) : GoStr := ((positions v).flatMap fun p => 124 :: positionText p) ++ [124]

theorem format36_eq : ∀ {p : Nat} (_ : p < 64), format36 13 p [] = positionText p := by decide

theorem uidLoop_eq (fuel i v : Nat) (hf : i + fuel = 64) : uidLoop fuel i v =
    ((List.range' i fuel).filter fun p => v.testBit (p - i)).flatMap fun p => 124 :: positionText p := by
  induction fuel generalizing i v with
  | zero => rfl
  | succ n ih =>
    unfold uidLoop
    by_cases hv : v > 0
    · rw [if_pos hv, ih (i + 1) (v / 2) (by omega), List.range'_succ, List.filter_cons]
      have hrest : (List.range' (i + 1) n).filter (fun p => (v / 2).testBit (p - (i + 1))) =
          (List.range' (i + 1) n).filter (fun p => v.testBit (p - i)) := by
        refine List.filter_congr fun p hp => ?_
        have := (List.mem_range'_1.1 hp).1
        have e : p - i = (p - (i + 1)) + 1 := by omega
        rw [e, Nat.testBit_succ]
      rw [hrest, Nat.sub_self]
      by_cases hb : v % 2 = 1
      · have : v.testBit 0 = true := by simp [Nat.testBit_zero, hb]
        simp only [hb, this, if_true, List.flatMap_cons, format36_eq (show i < 64 by omega)]
        rfl
      · have : v.testBit 0 = false := by simp [Nat.testBit_zero, hb]
        simp only [hb, this, if_false, Bool.false_eq_true, List.nil_append]
    · have : v = 0 := by omega
      subst this
      simp

theorem printableDataUID_eq (v : Nat) : printableDataUID v = dataUIDText v := by
  unfold printableDataUID dataUIDText positions
  rw [uidLoop_eq 64 0 v rfl, List.range_eq_range']
  rfl

theorem positionText_noBar : ∀ p < 64, 124 ∉ positionText p := by decide

theorem positionText_inj : ∀ p < 64, ∀ q < 64, positionText p = positionText q → p = q := by decide

/-- Reading up to the next separator. -/
theorem append_bar_inj {z : UInt8} {a b x y : GoStr} (ha : z ∉ a) (hb : z ∉ b) (e : a ++ z :: x = b ++ z :: y) : a = b ∧ x = y := by
  induction a generalizing b with
  | nil =>
    cases b with
    | nil => simpa using e
    | cons c b => simp only [List.nil_append, List.cons_append, List.cons.injEq] at e; exact absurd (by simp [e.1]) hb
  | cons c a ih =>
    cases b with
    | nil => simp only [List.nil_append, List.cons_append, List.cons.injEq] at e; exact absurd (by simp [e.1]) ha
    | cons d b =>
      simp only [List.cons_append, List.cons.injEq] at e
      obtain ⟨rfl, h2⟩ := ih (by simp_all) (by simp_all) e.2
      exact ⟨by rw [e.1], h2⟩

theorem bars_inj {l m : List Nat} (hl : ∀ p ∈ l, p < 64) (hm : ∀ p ∈ m, p < 64)
    (e : (l.flatMap fun p => 124 :: positionText p) ++ [124] = (m.flatMap fun p => 124 :: positionText p) ++ [124]) : l = m := by
  have tail : ∀ k : List Nat, ∃ r, (k.flatMap fun p => 124 :: positionText p) ++ [124] = 124 :: r := by
    intro k; cases k <;> simp
  have nonempty : ∀ p < 64, positionText p ≠ [] := by decide
  have nobar : ∀ p : Nat, p < 64 → ∀ (k : List Nat) (x : GoStr), 124 :: (positionText p ++ x) ≠ [124] := by
    intro p hp k x h
    simp only [List.cons.injEq, true_and, List.append_eq_nil_iff] at h
    exact nonempty p hp h.1
  induction l generalizing m with
  | nil =>
    cases m with
    | nil => rfl
    | cons q m =>
      simp only [List.flatMap_nil, List.nil_append, List.flatMap_cons, List.cons_append, List.append_assoc] at e
      exact absurd e.symm (nobar q (hm q (by simp)) m _)
  | cons p l ih =>
    cases m with
    | nil =>
      simp only [List.flatMap_nil, List.nil_append, List.flatMap_cons, List.cons_append, List.append_assoc] at e
      exact absurd e (nobar p (hl p (by simp)) l _)
    | cons q m =>
      obtain ⟨x, hx⟩ := tail l
      obtain ⟨y, hy⟩ := tail m
      simp only [List.flatMap_cons, List.cons_append, List.append_assoc, List.cons.injEq, true_and] at e
      rw [hx, hy] at e
      have hp := hl p (by simp)
      have hq := hm q (by simp)
      obtain ⟨h1, h2⟩ := append_bar_inj (positionText_noBar p hp) (positionText_noBar q hq) e
      have e1 := positionText_inj p hp q hq h1
      have e2 := ih (m := m) (fun a ha => hl a (by simp [ha])) (fun a ha => hm a (by simp [ha])) (hx.trans (by rw [h2]; exact hy.symm))
      rw [e1, e2]

theorem positions_inj {v w : Nat} (hv : v < 2 ^ 64) (hw : w < 2 ^ 64) (e : positions v = positions w) : v = w := by
  refine Nat.eq_of_testBit_eq fun i => ?_
  by_cases hi : i < 64
  · have : i ∈ positions v ↔ i ∈ positions w := by rw [e]
    simp only [positions, List.mem_filter, List.mem_range, hi, true_and] at this
    exact Bool.eq_iff_iff.2 this
  · have h64 : 2 ^ 64 ≤ 2 ^ i := Nat.pow_le_pow_right (by omega) (by omega)
    rw [Nat.testBit_lt_two_pow (by omega), Nat.testBit_lt_two_pow (by omega)]

theorem dataUIDText_inj {v w : Nat} (hv : v < 2 ^ 64) (hw : w < 2 ^ 64) (e : dataUIDText v = dataUIDText w) : v = w :=
  positions_inj hv hw (bars_inj (fun p hp => by simp [positions] at hp; exact hp.1) (fun p hp => by simp [positions] at hp; exact hp.1) e)

end Verif
