import Mathlib.Algebra.Order.Field.Rat
import Mathlib.Data.Rat.Cast.Defs

/- How texts are read: decimal numbers, and texts taken apart at separators. -/

namespace Verif

/-- The number a string of decimal digits stands for. -/
def natValue (t : List Char) : Nat := t.foldl (fun n c => 10 * n + (c.toNat - '0'.toNat)) 0

/-- The same with an optional sign. -/
def intValue : List Char → Int
  | '-' :: t => -natValue t
  | '+' :: t => natValue t
  | t => natValue t

/-- The number digits with an optional decimal point stand for. -/
def pointValue (t : List Char) : ℚ :=
  let whole := t.takeWhile (· != '.')
  let part := (t.dropWhile (· != '.')).drop 1
  natValue (whole ++ part) / 10 ^ part.length

/-- The number a decimal text with optional sign, decimal point and exponent stands for. -/
def readNumber : List Char → ℚ
  | '-' :: t => -scaled t
  | t => scaled t
where
  scaled (t : List Char) : ℚ :=
    pointValue (t.takeWhile (· != 'e')) * 10 ^ intValue ((t.dropWhile (· != 'e')).drop 1)

/-- Numbers with at most six significant decimal digits. -/
def SixDigits (x : ℚ) : Prop := ∃ n e : ℤ, |n| < 10 ^ 6 ∧ x = n * 10 ^ e

/-- The pieces of a text between occurrences of `c`. -/
def pieces (c : Char) : List Char → List (List Char)
  | [] => [[]]
  | x :: t =>
    if x = c then [] :: pieces c t
    else match pieces c t with
      | [] => [[x]]
      | p :: ps => (x :: p) :: ps

/-- The words of the lines of a text, words being separated by single blanks. -/
def table (t : List Char) : List (List (List Char)) := (pieces '\n' t).map (pieces ' ')

/-- A word contains neither blanks nor ends of lines. -/
def Word (t : List Char) : Prop := ' ' ∉ t ∧ '\n' ∉ t

end Verif
