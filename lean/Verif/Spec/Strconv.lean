import Verif.Props.CSVWriting
import Verif.Props.JsonNumber
import Verif.Spec.Float64

/-! The texts of decimal numbers, and the numbers they are. -/

namespace Verif

/-- A sign that may be left out; is it a minus? -/
def SignText (s : GoStr) (neg : Bool) : Prop := (s = [] ∨ s = b!"+") ∧ neg = false ∨ s = b!"-" ∧ neg = true

/-- Digits, or nothing. -/
def DigitsOrNone (s : GoStr) : Prop := ∀ b ∈ s, 48 ≤ b ∧ b ≤ 57

/-- An exponent that may be left out, between -99999 and 99999. -/
def ExpIs (s : GoStr) (x : Int) : Prop :=
  s = [] ∧ x = 0 ∨
    ∃ e sign neg d, s = e ++ (sign ++ d) ∧ (e = b!"e" ∨ e = b!"E") ∧ SignText sign neg ∧ Digits d ∧ digitsVal d < 100000 ∧
      x = if neg then -(digitsVal d : Int) else digitsVal d

/-- `s` is `± n * 10 ^ e` in decimal: a sign, digits, a point and digits, an exponent. All may be left out, but there is a digit before or
after the point. -/
def DecText (s : GoStr) (neg : Bool) (n : Nat) (e : Int) : Prop :=
  ∃ sign ip frac fp exp x, s = sign ++ (ip ++ (frac ++ exp)) ∧ SignText sign neg ∧ DigitsOrNone ip ∧
    (frac = [] ∧ fp = [] ∨ frac = b!"." ++ fp ∧ DigitsOrNone fp) ∧ ip ++ fp ≠ [] ∧ ExpIs exp x ∧
    n = digitsVal (ip ++ fp) ∧ e = x - fp.length

/-- The rational number a decimal text stands for. -/
def DecValue (s : GoStr) (q : ℚ) : Prop := ∃ neg n e, DecText s neg n e ∧ q = (if neg then -1 else 1) * ((n : ℚ) * 10 ^ e)

end Verif
