import Verif.CppString
/-!
# Places in a text

Independent of the code: lines and columns are counted from 1, a line ends behind a line feed.
-/
namespace Verif.Spec.Place

/-- The character with the index `k` (from 0) of the text is the character in line `l` and column `c`. -/
def At (s : Str) (l c k : Nat) : Prop := k < s.length ∧ ∃ front line, s.take k = front ++ line ∧ (front = [] ∨ ∃ q, front = q ++ ['\n']) ∧ '\n' ∉ line ∧
  l = front.count '\n' + 1 ∧ c = line.length + 1

/-- `n` characters from the index `i`. -/
def slice (s : Str) (i n : Nat) : Str := (s.drop i).take n

end Verif.Spec.Place
