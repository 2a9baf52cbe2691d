import Mathlib.Data.Nat.Digits.Defs
import Mathlib.Data.List.Sort

/-!
The dates of daily files: `DailyFileTimeSearch`, interpolation.py:676-743.

Names of files and patterns are lists of characters.  Patterns are given after `string.Formatter` has split them into characters and tags;
the tags are those of the documentation, `{year:04d}`, `{month:02d}` and `{day:02d}`.
-/

namespace Verif.Daily

/-- A tag of a pattern, interpolation.py:680-683. -/
inductive Tag
  | year | month | day
deriving DecidableEq

/-- A character or a tag. -/
inductive Tok
  | lit (c : Char)
  | tag (t : Tag)
deriving DecidableEq

abbrev Pattern := List Tok

/-- A date: year, month, day. -/
structure Date where
  y : ℕ
  m : ℕ
  d : ℕ
deriving DecidableEq

/-- The value of a tag. -/
def Date.get (x : Date) : Tag → ℕ
  | .year => x.y
  | .month => x.m
  | .day => x.d

/-- The number of digits in the format of a tag, and in the regular expression for it, interpolation.py:734-736. -/
def width : Tag → ℕ
  | .year => 4
  | .month => 2
  | .day => 2

/-- Python's format `0kd` of a natural number for `k > 0`: decimal digits, filled with zeros from the left up to `k` digits. -/
def pad (k n : ℕ) : List Char :=
  List.replicate (k - (Nat.digits 10 n).length) '0' ++ ((Nat.digits 10 n).reverse.map Nat.digitChar)

/-- The name of the file of a date: `pattern.format(year=..., month=..., day=...)`. -/
def fileName (p : Pattern) (x : Date) : List Char :=
  p.flatMap fun
    | .lit c => [c]
    | .tag t => pad (width t) (x.get t)

/-- Characters with a meaning of their own in regular expressions or in `glob`, apart from the dot. -/
def special : List Char := ['\\', '^', '$', '*', '+', '?', '(', ')', '[', ']', '{', '}', '|']

/-- A pattern without such characters. -/
def plain (p : Pattern) : Bool := p.all fun
  | .lit c => c ∉ special
  | .tag _ => true

/-- `int` of a sequence of digits. -/
def toInt (s : List Char) : ℕ := s.foldl (fun n c => 10 * n + (c.toNat - '0'.toNat)) 0

/-- The regular expression of a plain pattern from the start of `s`, interpolation.py:733-736: a dot stands for any character but the end
of line, a tag for a fixed number of digits.  The values of the groups, and what follows the match.  `\d` is taken as the ten digits of
ASCII. -/
def matchAt : Pattern → List Char → Option (List ℕ × List Char)
  | [], s => some ([], s)
  | .lit c :: p, s => match s with
    | [] => none
    | x :: s => if c = x ∨ c = '.' ∧ x ≠ '\n' then matchAt p s else none
  | .tag t :: p, s =>
    if (s.take (width t)).length = width t ∧ (s.take (width t)).all Char.isDigit then
      (matchAt p (s.drop (width t))).map fun r => (toInt (s.take (width t)) :: r.1, r.2)
    else none

/-- `re.findall`: matches from left to right that do not overlap; at most `n` steps. -/
def findN (p : Pattern) : ℕ → List Char → List (List ℕ)
  | 0, _ => []
  | _ + 1, [] => []
  | n + 1, x :: s => match matchAt p (x :: s) with
    | none => findN p n s
    | some (v, rest) => v :: findN p n rest

/-- `re.findall`, interpolation.py:737: a match of a pattern that is not empty and a shift take at least one character each. -/
def findAll (p : Pattern) (s : List Char) : List (List ℕ) := findN p s.length s

/-- `labels`, interpolation.py:741-742. -/
def labels (p : Pattern) : List Tag := p.filterMap fun
  | .lit _ => none
  | .tag t => some t

/-- An item of `dict(zip(labels, values))`, interpolation.py:743: of several the last. -/
def item (ls : List Tag) (vs : List ℕ) (t : Tag) : Option ℕ :=
  (((ls.zip vs).filter fun q => q.1 = t).getLast?).map Prod.snd

/-- Days of a month. -/
def daysIn (y m : ℕ) : ℕ :=
  if m = 2 then (if (y % 4 = 0 ∧ y % 100 ≠ 0) ∨ y % 400 = 0 then 29 else 28) else if m = 4 ∨ m = 6 ∨ m = 9 ∨ m = 11 then 30 else 31

/-- The dates of `datetime.datetime`. -/
def Date.Valid (x : Date) : Prop := 1 ≤ x.y ∧ x.y ≤ 9999 ∧ 1 ≤ x.m ∧ x.m ≤ 12 ∧ 1 ≤ x.d ∧ x.d ≤ daysIn x.y x.m

instance (x : Date) : Decidable x.Valid := by unfold Date.Valid; infer_instance

/-- `_parse_date` and the time stamp made of it, interpolation.py:729-743 and 702-706.  `none` is an exception: no match or several, a tag
that is missing in the pattern, values that are no date.  Patterns with other special characters are left out: no date. -/
def parse (p : Pattern) (s : List Char) : Option Date :=
  if plain p = false then none else
  match findAll p s with
  | [v] => match item (labels p) v .year, item (labels p) v .month, item (labels p) v .day with
    | some y, some m, some d => if Date.Valid ⟨y, m, d⟩ then some ⟨y, m, d⟩ else none
    | _, _, _ => none
  | _ => none

/-- `glob.glob` of the pattern with a star for each tag, interpolation.py:719-728, for plain patterns: a star stands for any characters
but the slash.  Names that start with a dot, which a star does not match, are left out. -/
inductive Glob : Pattern → List Char → Prop
  | nil : Glob [] []
  | lit (c : Char) {p s} : Glob p s → Glob (.lit c :: p) (c :: s)
  | tag (t : Tag) (u : List Char) {p s} : '/' ∉ u → Glob p s → Glob (.tag t :: p) (u ++ s)

/-- The order of time stamps with the same hour and time zone. -/
def Date.le (a b : Date) : Prop := a.y < b.y ∨ a.y = b.y ∧ (a.m < b.m ∨ a.m = b.m ∧ a.d ≤ b.d)

/-- `self.files` and `self.start_datetime` for the files that were found, interpolation.py:700-709: all of them with their dates, sorted;
an exception if one has no date or no file was found. -/
def Listing (p : Pattern) (found : List (List Char)) (out : List (List Char × Date)) : Prop :=
  found ≠ [] ∧ (out.map Prod.fst).Perm found ∧ (∀ q ∈ out, parse p q.1 = some q.2) ∧ out.Pairwise fun a b => a.2.le b.2

end Verif.Daily
