import Verif.Fl
import Verif.TexInfo
import Verif.Labels
import Mathlib.Data.Int.Log

/-!
# Model: number formatting of fitfunctions/tex_info.py

`"%e" % x` and `"{:.ne}".format(x)` are modelled exactly: the correctly rounded decimal of the exact value (ties to even).
Values are exact reals or `nan`, `inf`, `-inf` (`Fl`); there is no negative zero.  `float(text)` of a decimal with at most fifteen
digits and `str` of that number are modelled by the shortest decimal (`Dec`).
-/

namespace SW
namespace Tex

open Labels (replGo)

noncomputable section
open Classical

/-! ### `%e` -/

/-- rounding of a non-negative real to a natural number, ties to even (C `printf`, CPython `format_float`) -/
def roundHE (x : ℝ) : ℕ :=
  if x - ⌊x⌋₊ < 1 / 2 then ⌊x⌋₊
  else if 1 / 2 < x - ⌊x⌋₊ then ⌊x⌋₊ + 1
  else if ⌊x⌋₊ % 2 = 0 then ⌊x⌋₊ else ⌊x⌋₊ + 1

/-- a decimal with sign, all its significant digits as one number, and the exponent of the first digit -/
structure Sci where
  neg : Bool
  m : ℕ
  e : ℤ

/-- `d + 1` significant digits of `x` -/
def sci (d : ℕ) (x : ℝ) : Sci :=
  if x = 0 then ⟨false, 0, 0⟩
  else if roundHE (|x| * 10 ^ ((d : ℤ) - Int.log 10 |x|)) = 10 ^ (d + 1) then ⟨decide (x < 0), 10 ^ d, Int.log 10 |x| + 1⟩
  else ⟨decide (x < 0), roundHE (|x| * 10 ^ ((d : ℤ) - Int.log 10 |x|)), Int.log 10 |x|⟩

end

/-- the last `k` decimal digits of `n` -/
def digs : ℕ → ℕ → Str
  | 0, _ => []
  | k + 1, n => digs k (n / 10) ++ [Nat.digitChar (n % 10)]

/-- exponent: sign and at least two digits -/
def expText (e : ℤ) : Str :=
  (if e < 0 then '-' else '+') :: (if e.natAbs < 10 then '0' :: Nat.toDigits 10 e.natAbs else Nat.toDigits 10 e.natAbs)

/-- mantissa with `d` decimals -/
def mantText (d : ℕ) (s : Sci) : Str :=
  (if s.neg then ['-'] else []) ++ (Nat.digitChar (s.m / 10 ^ d % 10) :: (if d = 0 then [] else '.' :: digs d s.m))

/-- the whole number -/
def sciText (d : ℕ) (s : Sci) : Str := mantText d s ++ 'e' :: expText s.e

/-- `"{:.de}".format(x)`; `"%e" % x` is `fmtE 6 x` -/
noncomputable def fmtE (d : ℕ) : Fl → Str
  | .nan => ['n', 'a', 'n']
  | .pinf => ['i', 'n', 'f']
  | .ninf => ['-', 'i', 'n', 'f']
  | .fin x => sciText d (sci d x)

/-- `s.partition(c)[2]` -/
def after (c : Char) : Str → Str
  | [] => []
  | a :: s => if a = c then s else after c s

/-- digits as a number -/
def pyNat (t : Str) : Except PyErr ℕ := if t ≠ [] ∧ ∀ c ∈ t, c.isDigit = true then .ok (Nat.ofDigitChars 10 t 0) else .error .valueError

/-- `int(text)`: an optional sign and digits (ASCII, no underscores or blanks) -/
def pyInt (s : Str) : Except PyErr ℤ :=
  match s with
  | '+' :: t => Except.map Int.ofNat (pyNat t)
  | '-' :: t => Except.map (fun n => -Int.ofNat n) (pyNat t)
  | t => Except.map Int.ofNat (pyNat t)

/-- `TeXinfo._calc_precision`, fitfunctions/tex_info.py:198-211 -/
noncomputable def calcPrecision (x : Fl) : Except PyErr ℤ := pyInt (after 'e' (fmtE 6 x))

/-- ` \pm ` -/
def pm : Str := [' ', '\\', 'p', 'm', ' ']

open Classical in
/-- `TeXinfo.val_uncert_2_string`, fitfunctions/tex_info.py:532-567 -/
noncomputable def valUncert (v u : Fl) : Except PyErr Str :=
  if u.isFinite then
    match calcPrecision u with
    | .error e => .error e
    | .ok up => match calcPrecision v with
      | .error e => .error e
      | .ok vp => .ok (fmtE (vp - up).natAbs v ++ pm ++ fmtE 0 u)
  else .ok (fmtE 3 v ++ pm ++ fmtE 0 u)

/-! ### powers of ten -/

/-- `s.split(r"\pm")`: pieces between occurrences of the three characters -/
def splitPm : Str → List Str
  | [] => [[]]
  | c :: cs => match c, cs with
    | '\\', 'p' :: 'm' :: r => [] :: splitPm r
    | c, cs => match splitPm cs with
      | [] => [[c]]
      | p :: ps => (c :: p) :: ps

/-- `r"\pm".join(l)` -/
def joinPm : List Str → Str
  | [] => []
  | [p] => p
  | p :: q :: ps => p ++ '\\' :: 'p' :: 'm' :: joinPm (q :: ps)

/-- `x + "}" if x.count("{") > x.count("}") else x` -/
def closeBrace (x : Str) : Str := if x.count '}' < x.count '{' then x ++ ['}'] else x

/-- ` \times 10^{` -/
def times : Str := [' ', '\\', 't', 'i', 'm', 'e', 's', ' ', '1', '0', '^', '{']

/-- the four substitutions, fitfunctions/tex_info.py:312-317 -/
def powSub (s : Str) : Str :=
  replGo ['-', '0'] ['-'] 0 (replGo ['+', '0'] ['+'] 0 (replGo ['e', '-'] (times ++ ['-']) 0 (replGo ['e', '+'] (times ++ ['+']) 0 s)))

/-- the `convert_pow_10` block, fitfunctions/tex_info.py:309-330 -/
def convertPow (lines : List Str) : List Str :=
  (Chars.split '\n' (powSub (Chars.join '\n' lines))).map (fun l => joinPm ((splitPm l).map closeBrace))

/-- `[x.split(r"\pm")[0] for x in info]`, fitfunctions/tex_info.py:332-333 -/
def stripUnc (lines : List Str) : List Str := lines.map (fun l => (splitPm l).headD [])

/-! ### `_simplify_for_paper` -/

/-- `s.strip("$")` -/
def stripDollar (s : Str) : Str := ((s.dropWhile (· = '$')).reverse.dropWhile (· = '$')).reverse

/-- `s.rstrip(c)` -/
def rstrip (c : Char) (s : Str) : Str := (s.reverse.dropWhile (· = c)).reverse

/-- one line of `TeXinfo._simplify_for_paper`, fitfunctions/tex_info.py:213-232; `strFloat t` is `str(float(t))`, `none` when
`float` raises `ValueError` -/
def simplifyLine (strFloat : Str → Option Str) (line : Str) : Str :=
  let ii := stripDollar line
  match Chars.split '=' (ii.filter (· ≠ ' ')) with
  | t0 :: t1 :: _ => match strFloat t1 with
    | some r => t0 ++ [' ', '=', ' '] ++ rstrip '.' (rstrip '0' r)
    | none => ii
  | _ => ii

/-- a finite decimal with first digit not zero and last digit not zero: `±0.d₁d₂… · 10^(e+1)` -/
structure Dec where
  neg : Bool
  ds : List ℕ
  e : ℤ

/-- digits as text -/
def dtext (ds : List ℕ) : Str := ds.map Nat.digitChar

/-- Python `repr(float)` of the number whose shortest decimal is `D`: positional for `-4 ≤ e < 16`, else exponent notation -/
def pyRepr (D : Dec) : Str :=
  (if D.neg then ['-'] else []) ++
  (if D.e < -4 ∨ 16 ≤ D.e then
      (match D.ds with
       | [] => ['0']
       | [a] => [Nat.digitChar a]
       | a :: r => Nat.digitChar a :: '.' :: dtext r) ++ 'e' :: expText D.e
    else if D.e < 0 then '0' :: '.' :: (List.replicate ((-D.e).toNat - 1) '0' ++ dtext D.ds)
    else if D.ds.length ≤ D.e.toNat + 1 then
      dtext D.ds ++ List.replicate (D.e.toNat + 1 - D.ds.length) '0' ++ ['.', '0']
    else dtext (D.ds.take (D.e.toNat + 1)) ++ '.' :: dtext (D.ds.drop (D.e.toNat + 1)))

/-! ### names -/

/-- state of the naming part of a `TeXinfo`: the optimised parameters, the initial guess (keys with values) if any, the translation -/
structure Names where
  popt : List String
  guess : Option (List String)
  trans : Option (List (String × String))

/-- `TeXinfo.initial_guess_info`, fitfunctions/tex_info.py:67-94: `none` without a guess; the text of a table whose rows are
named by the translated keys (`table` renders the numbers: not modelled); `KeyError` when a translated key is missing -/
def guessInfo (table : List String → Str) (s : Names) : Except PyErr (Option Str) :=
  match s.guess with
  | none => .ok none
  | some ks => match s.trans with
    | none => .ok (some (table ks))
    | some tr => match translate (ks.map (fun k => (k, ()))) tr with
      | .error e => .error e
      | .ok d => .ok (some (table (d.map Prod.fst)))

/-- `TeXinfo.set_TeX_argnames`, fitfunctions/tex_info.py:504-521; the test `k in initial_guess` is a substring test on the table's text -/
def setArgnames (table : List String → Str) (s : Names) (kw : List (String × String)) : Names × Except PyErr Unit :=
  match guessInfo table s with
  | .error e => (s, .error e)
  | .ok g =>
    if ∀ p ∈ kw, p.1 ∈ s.popt ∧ (∀ t ∈ g, p.1.toList <:+: t) then ({ s with trans := some kw }, .ok ()) else (s, .error .valueError)

end Tex
end SW
