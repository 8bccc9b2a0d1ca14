import Verif.Spec.Strconv
import Mathlib.Data.Nat.Digits.Defs

/-! The texts that Go's `strconv.ParseFloat` takes for numbers, and the numbers they are. -/

namespace Verif

/-- `b` is a digit with value `d`; in hexadecimal numbers also the letters a to f and A to F. -/
def DigitIs (hex : Bool) (b : UInt8) (d : ℕ) : Prop :=
  (48 ≤ b ∧ b ≤ 57 ∧ d = b.toNat - 48) ∨
    hex = true ∧ (97 ≤ b ∧ b ≤ 102 ∧ d = b.toNat - 97 + 10 ∨ 65 ≤ b ∧ b ≤ 70 ∧ d = b.toNat - 65 + 10)

/-- The values of the digits of a text. -/
def DigitsAre (hex : Bool) (s : GoStr) (ds : List ℕ) : Prop := List.Forall₂ (DigitIs hex) s ds

/-- The exponent that the digits `d` stand for: their value, but the digits after the one with which 10000 is reached are ignored. -/
def CutTo (d : GoStr) (x : ℕ) : Prop :=
  ∃ d₁ d₂, d = d₁ ++ d₂ ∧ x = digitsVal d₁ ∧ (d₂ = [] ∨ 10000 ≤ x) ∧ digitsVal d₁.dropLast < 10000

/-- The exponent: `e` or `E`, for hexadecimal numbers `p` or `P`, a sign that may be left out, and digits. Only decimal numbers can do
without. -/
def LitExp (hex : Bool) (s : GoStr) (x : ℤ) : Prop :=
  hex = false ∧ s = [] ∧ x = 0 ∨
    ∃ e sign neg d n, s = e ++ (sign ++ d) ∧ (if hex then e = b!"p" ∨ e = b!"P" else e = b!"e" ∨ e = b!"E") ∧ SignText sign neg ∧
      Digits d ∧ CutTo d n ∧ x = if neg then -(n : ℤ) else n

/-- `s` is the number `± n * 10 ^ e`, or `± n * 2 ^ e` in hexadecimal digits: a sign, `0x` or `0X` in the second case, digits, a point and
digits, an exponent. There is a digit before or after the point. -/
def Literal (s : GoStr) (hex neg : Bool) (n : ℕ) (e : ℤ) : Prop :=
  ∃ sign pre ip is frac fp fs exp x, s = sign ++ (pre ++ (ip ++ (frac ++ exp))) ∧ SignText sign neg ∧
    (if hex then pre = b!"0x" ∨ pre = b!"0X" else pre = []) ∧ DigitsAre hex ip is ∧
    (frac = [] ∧ fp = [] ∧ fs = [] ∨ frac = b!"." ++ fp ∧ DigitsAre hex fp fs) ∧ is ++ fs ≠ [] ∧ LitExp hex exp x ∧
    n = Nat.ofDigits (if hex then 16 else 10) (is ++ fs).reverse ∧ e = x - (if hex then 4 else 1) * fs.length

/-- The rational number. -/
def litValue (hex neg : Bool) (n : ℕ) (e : ℤ) : ℚ := (if neg then -1 else 1) * ((n : ℚ) * (if hex then 2 else 10) ^ e)

/-- The two texts are the same but for the case of ASCII letters, the second having none but small ones. -/
def SameLetters (s t : GoStr) : Prop := List.Forall₂ (fun a b => a = b ∨ 97 ≤ b ∧ b ≤ 122 ∧ a = b - 32) s t

/-- The texts of NaN and of the infinities. -/
def SpecialText (s : GoStr) (x : Float64) : Prop :=
  SameLetters s b!"nan" ∧ x = .nan ∨
    ∃ sign neg t, s = sign ++ t ∧ SignText sign neg ∧ (SameLetters t b!"inf" ∨ SameLetters t b!"infinity") ∧ x = .inf neg

/-- The text begins with a sign that may be left out, and `0x` or `0X`. -/
def HexStart (s : GoStr) : Prop := ∃ sign neg t, SignText sign neg ∧ (s = sign ++ (b!"0x" ++ t) ∨ s = sign ++ (b!"0X" ++ t))

/-- A digit of this text. -/
def DigitOf (s : GoStr) (b : UInt8) : Prop := (48 ≤ b ∧ b ≤ 57) ∨ HexStart s ∧ (97 ≤ b ∧ b ≤ 102 ∨ 65 ≤ b ∧ b ≤ 70)

/-- Each underscore is between two digits, or between `0x` and a digit. -/
def UnderscoresFit (s : GoStr) : Prop :=
  ∀ u v, s = u ++ b!"_" ++ v →
    ((∃ u' c, u = u' ++ [c] ∧ DigitOf s c) ∨ ∃ sign neg, SignText sign neg ∧ (u = sign ++ b!"0x" ∨ u = sign ++ b!"0X")) ∧
    ∃ c v', v = c :: v' ∧ DigitOf s c

end Verif
