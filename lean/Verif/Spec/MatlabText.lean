import Verif.Model.MatlabText

/-!
How a table of text is read: a line is a sequence of words separated by blanks.
-/

namespace Fub

/-- Separators of words. -/
def isSep (c : Char) : Bool := c == ' ' || c == '\n'

/-- The words of a text; `cur` are the characters of the current word so far. -/
def wordsFrom : List Char → List Char → List (List Char)
  | cur, [] => if cur = [] then [] else [cur]
  | cur, c :: s => if isSep c then (if cur = [] then wordsFrom [] s else cur :: wordsFrom [] s) else wordsFrom (cur ++ [c]) s

/-- The words of a line. -/
def words (line : List Char) : List (List Char) := wordsFrom [] line

/-- A word: not empty, without separators. -/
def IsWord (w : List Char) : Prop := w ≠ [] ∧ ∀ c ∈ w, isSep c = false

/-- Numbers are printed as words that leave at least one blank in a field of 24 characters, with the leading blank. The format has one sign or blank, 17 characters of mantissa and at most 5 of exponent. -/
def NumText.Fits {K : Type} (N : NumText K) : Prop := ∀ v, IsWord (N.word v) ∧ (N.word v).length < 23

end Fub
