import Verif.Model.Outcome

/-!
# Text

The string functions of the C++ library that fields and parsers use.  A string is its list of
characters; the code works on bytes, which makes no difference here because everything that is searched
for is ASCII.  The two regular expressions of `src/fields2cover/types/Field.cpp` are written as
matchers.
-/

namespace F2C.Text

/-- `std::string`. -/
abbrev Str := List Char

/-- `s.find(pat) != std::string::npos`. -/
def contains (pat : Str) : Str → Bool
  | [] => pat.isEmpty
  | c :: s => pat.isPrefixOf (c :: s) || contains pat s

/-- `s.substr(pos, n)`: throws if `pos` is past the end. -/
def substr (s : Str) (pos n : Nat) : Outcome Str :=
  if pos > s.length then .throw .outOfRange else .ok ((s.drop pos).take n)

/-- `s.substr(pos)`. -/
def substrFrom (s : Str) (pos : Nat) : Outcome Str :=
  if pos > s.length then .throw .outOfRange else .ok (s.drop pos)

/-- `isspace` in the classic locale. -/
def isSpace (c : Char) : Bool := c = ' ' || (9 ≤ c.toNat && c.toNat ≤ 13)

/-- The value of decimal digits, the most significant one first. -/
def number (ds : Str) : Nat := ds.foldl (fun n c => 10 * n + (c.toNat - 48)) 0

/-- Sign and rest of a number. -/
def sign : Str → Bool × Str
  | '-' :: r => (true, r)
  | '+' :: r => (false, r)
  | r => (false, r)

/-- `std::stoi(s)`: white space, a sign and digits; what follows is ignored. -/
def stoi (s : Str) : Outcome Int :=
  let (neg, r) := sign (s.dropWhile isSpace)
  let ds := r.takeWhile Char.isDigit
  if ds = [] then .throw .invalidArgument
  else
    let v : Int := if neg then -(number ds : Int) else (number ds : Int)
    if v < -2147483648 ∨ 2147483647 < v then .throw .outOfRange else .ok v

/-- Decimal digits of `n`, put in front of `acc`; `fuel` digits are enough. -/
def digitsTo : Nat → Nat → Str → Str
  | 0, _, acc => acc
  | fuel + 1, n, acc =>
    let acc := Char.ofNat (48 + n % 10) :: acc
    if n / 10 = 0 then acc else digitsTo fuel (n / 10) acc

/-- `std::to_string` of an unsigned number. -/
def natStr (n : Nat) : Str := digitsTo (n + 1) n []

/-- `std::to_string` of an `int`. -/
def intStr : Int → Str
  | .ofNat n => natStr n
  | .negSucc n => '-' :: natStr (n + 1)

/-- `[A-Za-z0-9_]` -/
def isWord (c : Char) : Bool := c.isAlphanum || c = '_'

/-- `std::regex_search` for a literal followed by `rest`: the first position where both match gives the
group. -/
def search (lit : Str) (rest : Str → Option Str) : Str → Option Str
  | [] => none
  | c :: s =>
    if lit.isPrefixOf (c :: s) then
      match rest ((c :: s).drop lit.length) with
      | some g => some g
      | none => search lit rest s
    else search lit rest s

/-- `[^0-9A-Za-z]*(\d+\w)[^\w]*` at the beginning of `s`: the group.  `\d+` takes all digits, and gives one
back if no word character follows; fewer of the leading characters cannot be skipped. -/
def utmGroup (s : Str) : Option Str :=
  let r := s.dropWhile fun c => !c.isAlphanum
  let ds := r.takeWhile Char.isDigit
  match r.dropWhile Char.isDigit with
  | c :: _ =>
    if ds ≠ [] ∧ isWord c then some (ds ++ [c])
    else if 2 ≤ ds.length then some ds else none
  | [] => if 2 ≤ ds.length then some ds else none

/-- `[^0-9A-Za-z]*([0-9A-Za-z]+)` at the beginning of `s`: the group. -/
def datumGroup (s : Str) : Option Str :=
  let g := (s.dropWhile fun c => !c.isAlphanum).takeWhile Char.isAlphanum
  if g = [] then none else some g

/-- The lambda `findAndReplaceAll` (src/fields2cover/utils/parser.cpp:56-64): `s` is the text from `pos`
on.  After a replacement the search goes on behind it.  An empty `pat` would never end; `fuel` rounds
(one per character) are enough otherwise. -/
def replaceFrom (pat rep : Str) : Nat → Str → Outcome Str
  | 0, [] => .ok []
  | 0, _ => .ub "endless loop"
  | _ + 1, [] => if pat = [] then .ub "endless loop" else .ok []
  | fuel + 1, c :: s =>
    if pat.isPrefixOf (c :: s) then do
      let r ← replaceFrom pat rep fuel ((c :: s).drop pat.length)
      return rep ++ r
    else do
      let r ← replaceFrom pat rep fuel s
      return c :: r

/-- `findAndReplaceAll(data, toSearch, replaceStr)`. -/
def replaceAll (pat rep s : Str) : Outcome Str := replaceFrom pat rep (s.length + 1) s

/-- The rewriting of the coordinates in `Parser::importFieldGml` (parser.cpp:65-68). -/
def gmlToWkt (s : Str) : Outcome Str := do
  let s ← replaceAll [','] [';'] s
  let s ← replaceAll [' '] [',', ' '] s
  let s ← replaceAll [';'] [' '] s
  return "POLYGON ((".toList ++ s ++ "))".toList

end F2C.Text
