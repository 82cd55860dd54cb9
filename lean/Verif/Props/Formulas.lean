import Verif.Formulas
import Verif.Props.FitFuncs
import Verif.Props.TexFull

/-! # The printed formulas: C214 -/

namespace SW
namespace Tex

/-! ## Specification: reading a LaTeX formula -/

/-- symbols of a formula -/
inductive Tok where
  /-- a number -/
  | num (n : ℕ)
  /-- a letter with an optional subscript -/
  | id (c : Char) (sub : Option Char)
  /-- a command `\name` -/
  | cmd (s : List Char)
  /-- any other character -/
  | sym (c : Char)
deriving DecidableEq

/-- text to symbols; blanks, newlines and the thin space `\,` are skipped -/
def lexGo : ℕ → List Char → List Tok
  | 0, _ => []
  | _ + 1, [] => []
  | n + 1, ' ' :: s => lexGo n s
  | n + 1, '\n' :: s => lexGo n s
  | n + 1, '\\' :: ',' :: s => lexGo n s
  | n + 1, '\\' :: s => .cmd (s.takeWhile Char.isAlpha) :: lexGo n (s.dropWhile Char.isAlpha)
  | n + 1, c :: s =>
    if c.isAlpha then
      match s with
      | '_' :: d :: s => .id c (some d) :: lexGo n s
      | s => .id c none :: lexGo n s
    else if c.isDigit then .num (Nat.ofDigitChars 10 ((c :: s).takeWhile Char.isDigit) 0) :: lexGo n (s.dropWhile Char.isDigit)
    else .sym c :: lexGo n s

/-- text to symbols -/
def lex (s : List Char) : List Tok := lexGo s.length s

/-- an expression -/
inductive Ast where
  | num (n : ℕ)
  | var (name : List Char) (sub : Option Char)
  | pi
  | neg (a : Ast)
  | add (a b : Ast)
  | sub (a b : Ast)
  | mul (a b : Ast)
  | div (a b : Ast)
  | pow (a b : Ast)
  | exp (a : Ast)
  | ln (a : Ast)
  | sqrt (a : Ast)
  | arctan (a : Ast)
  | step (a : Ast)
  | min (a b : Ast)
  | max (a b : Ast)
deriving DecidableEq

/-- can the symbols continue a product without a sign? -/
def starts : List Tok → Bool
  | .num _ :: _ => true
  | .id _ _ :: _ => true
  | .sym '(' :: _ => true
  | .cmd c :: _ => c ≠ "right".toList
  | _ => false

mutual
/-- sums -/
def pExpr : ℕ → List Tok → Option (Ast × List Tok)
  | 0, _ => none
  | n + 1, .sym '-' :: r => match pTerm n r with
    | some (a, r) => pSum n (.neg a) r
    | none => none
  | n + 1, ts => match pTerm n ts with
    | some (a, r) => pSum n a r
    | none => none
/-- further terms -/
def pSum : ℕ → Ast → List Tok → Option (Ast × List Tok)
  | 0, _, _ => none
  | n + 1, a, .sym '+' :: r => match pTerm n r with
    | some (b, r) => pSum n (.add a b) r
    | none => none
  | n + 1, a, .sym '-' :: r => match pTerm n r with
    | some (b, r) => pSum n (.sub a b) r
    | none => none
  | _ + 1, a, r => some (a, r)
/-- products -/
def pTerm : ℕ → List Tok → Option (Ast × List Tok)
  | 0, _ => none
  | n + 1, ts => match pFactor n ts with
    | some (a, r) => pProd n a r
    | none => none
/-- further factors: after `\cdot`, after `\times`, or juxtaposed -/
def pProd : ℕ → Ast → List Tok → Option (Ast × List Tok)
  | 0, _, _ => none
  | n + 1, a, ts =>
    match ts with
    | .cmd ['c', 'd', 'o', 't'] :: r => (match pFactor n r with
      | some (b, r) => pProd n (.mul a b) r
      | none => none)
    | .cmd ['t', 'i', 'm', 'e', 's'] :: r => (match pFactor n r with
      | some (b, r) => pProd n (.mul a b) r
      | none => none)
    | ts => if starts ts then (match pFactor n ts with
      | some (b, r) => pProd n (.mul a b) r
      | none => none) else some (a, ts)
/-- an atom and its power -/
def pFactor : ℕ → List Tok → Option (Ast × List Tok)
  | 0, _ => none
  | n + 1, ts => match pAtom n ts with
    | some (a, .sym '^' :: r) => (match pScript n r with
      | some (b, r) => some (.pow a b, r)
      | none => none)
    | o => o
/-- an exponent: a group or a single symbol -/
def pScript : ℕ → List Tok → Option (Ast × List Tok)
  | 0, _ => none
  | n + 1, .sym '{' :: r => pGroup n (.sym '{' :: r)
  | _ + 1, .num k :: r => some (.num k, r)
  | _ + 1, .id c s :: r => some (.var [c] s, r)
  | _ + 1, _ => none
/-- `{ expr }` -/
def pGroup : ℕ → List Tok → Option (Ast × List Tok)
  | 0, _ => none
  | n + 1, .sym '{' :: r => match pExpr n r with
    | some (a, .sym '}' :: r) => some (a, r)
    | _ => none
  | _ + 1, _ => none
/-- `( expr )`, `\left( expr \right)`, `\left[ expr \right]` -/
def pParen : ℕ → List Tok → Option (Ast × List Tok)
  | 0, _ => none
  | n + 1, .sym '(' :: r => match pExpr n r with
    | some (a, .sym ')' :: r) => some (a, r)
    | _ => none
  | n + 1, .cmd ['l', 'e', 'f', 't'] :: .sym '(' :: r => match pExpr n r with
    | some (a, .cmd ['r', 'i', 'g', 'h', 't'] :: .sym ')' :: r) => some (a, r)
    | _ => none
  | n + 1, .cmd ['l', 'e', 'f', 't'] :: .sym '[' :: r => match pExpr n r with
    | some (a, .cmd ['r', 'i', 'g', 'h', 't'] :: .sym ']' :: r) => some (a, r)
    | _ => none
  | _ + 1, _ => none
/-- `( expr , expr )`, also with `\left`, `\right` -/
def pPair : ℕ → List Tok → Option ((Ast × Ast) × List Tok)
  | 0, _ => none
  | n + 1, .sym '(' :: r => match pExpr n r with
    | some (a, .sym ',' :: r) => (match pExpr n r with
      | some (b, .sym ')' :: r) => some ((a, b), r)
      | _ => none)
    | _ => none
  | n + 1, .cmd ['l', 'e', 'f', 't'] :: .sym '(' :: r => match pExpr n r with
    | some (a, .sym ',' :: r) => (match pExpr n r with
      | some (b, .cmd ['r', 'i', 'g', 'h', 't'] :: .sym ')' :: r) => some ((a, b), r)
      | _ => none)
    | _ => none
  | _ + 1, _ => none
/-- atoms: `e^` is the exponential, `H(...)` the unit step -/
def pAtom : ℕ → List Tok → Option (Ast × List Tok)
  | 0, _ => none
  | _ + 1, .num k :: r => some (.num k, r)
  | n + 1, .id 'e' none :: .sym '^' :: r => match pScript n r with
    | some (a, r) => some (.exp a, r)
    | none => none
  | n + 1, .id 'H' none :: r => match pParen n r with
    | some (a, r) => some (.step a, r)
    | none => none
  | _ + 1, .id c s :: r => some (.var [c] s, r)
  | n + 1, .sym c :: r => pParen n (.sym c :: r)
  | n + 1, .cmd ['l', 'e', 'f', 't'] :: r => pParen n (.cmd ['l', 'e', 'f', 't'] :: r)
  | n + 1, .cmd ['f', 'r', 'a', 'c'] :: r => match pGroup n r with
    | some (a, r) => (match pGroup n r with
      | some (b, r) => some (.div a b, r)
      | none => none)
    | none => none
  | n + 1, .cmd ['s', 'q', 'r', 't'] :: r => match pGroup n r with
    | some (a, r) => some (.sqrt a, r)
    | none => none
  | n + 1, .cmd ['e', 'x', 'p'] :: r => match pParen n r with
    | some (a, r) => some (.exp a, r)
    | none => none
  | n + 1, .cmd ['l', 'n'] :: r => match pAtom n r with
    | some (a, r) => some (.ln a, r)
    | none => none
  | n + 1, .cmd ['a', 'r', 'c', 't', 'a', 'n'] :: r => match pParen n r with
    | some (a, r) => some (.arctan a, r)
    | none => none
  | n + 1, .cmd ['m', 'i', 'n'] :: r => match pPair n r with
    | some (ab, r) => some (.min ab.1 ab.2, r)
    | none => none
  | n + 1, .cmd ['m', 'a', 'x'] :: r => match pPair n r with
    | some (ab, r) => some (.max ab.1 ab.2, r)
    | none => none
  | _ + 1, .cmd ['p', 'i'] :: r => some (.pi, r)
  | _ + 1, .cmd ['m', 'u'] :: r => some (.var ['m', 'u'] none, r)
  | _ + 1, .cmd ['s', 'i', 'g', 'm', 'a'] :: r => some (.var ['s', 'i', 'g', 'm', 'a'] none, r)
  | _ + 1, .cmd ['t', 'h', 'e', 't', 'a'] :: r => some (.var ['t', 'h', 'e', 't', 'a'] none, r)
  | _ + 1, _ => none
end

/-- the expression a text denotes, if all of it can be read -/
def parse (s : List Char) : Option Ast :=
  match pExpr (4 * s.length + 4) (lex s) with
  | some (a, []) => some a
  | _ => none

/-- the text before and after the first `=` -/
def sides (s : List Char) : List Char × List Char := (s.takeWhile (· ≠ '='), (s.dropWhile (· ≠ '=')).drop 1)

/-- the value of an expression: `ρ` gives the values of the names (letter or command, then subscript), `i` the value of the index `i`,
`h0` the value of the unit step at zero (conventions differ) -/
noncomputable def Ast.eval (h0 : ℝ) (i : Char) (ρ : List Char → ℝ) : Ast → ℝ
  | .num n => n
  | .var c none => ρ c
  | .var c (some s) => ρ (c ++ [if s = 'i' then i else s])
  | .pi => Real.pi
  | .neg a => -(a.eval h0 i ρ)
  | .add a b => a.eval h0 i ρ + b.eval h0 i ρ
  | .sub a b => a.eval h0 i ρ - b.eval h0 i ρ
  | .mul a b => a.eval h0 i ρ * b.eval h0 i ρ
  | .div a b => a.eval h0 i ρ / b.eval h0 i ρ
  | .pow a b => a.eval h0 i ρ ^ b.eval h0 i ρ
  | .exp a => Real.exp (a.eval h0 i ρ)
  | .ln a => Real.log (a.eval h0 i ρ)
  | .sqrt a => Real.sqrt (a.eval h0 i ρ)
  | .arctan a => Real.arctan (a.eval h0 i ρ)
  | .step a => if a.eval h0 i ρ < 0 then 0 else if a.eval h0 i ρ = 0 then h0 else 1
  | .min a b => Min.min (a.eval h0 i ρ) (b.eval h0 i ρ)
  | .max a b => Max.max (a.eval h0 i ρ) (b.eval h0 i ρ)

/-- the text says `f(x) = v` when the names have the values `ρ` and the unit step has the value `h0` at zero -/
def Says (text : String) (h0 : ℝ) (ρ : List Char → ℝ) (v : Fl) : Prop :=
  ∃ a, parse (sides text.toList).2 = some a ∧ v = .fin (a.eval h0 '1' ρ)

/-- the printed equation holds for the values `ρ` (with an index `i`: for `i = 1` and for `i = 2`) -/
def Holds (line : String) (ρ : List Char → ℝ) : Prop :=
  ∃ a b, parse (sides line.toList).1 = some a ∧ parse (sides line.toList).2 = some b ∧
    ∀ i ∈ ['1', '2'], a.eval 0 i ρ = b.eval 0 i ρ

/-! ## The texts, read -/

section
open Ast
theorem p_texLine0 : parse (sides (texLine.getD 0 "").toList).2 = some (
    add (mul (var ['m'] none) (var ['x'] none)) (var ['b'] none)) := by decide +kernel
theorem p_texLineX0 : parse (sides (texLineX.getD 0 "").toList).2 = some (
    mul (var ['m'] none) (sub (var ['x'] none) (var ['x'] (some '0')))) := by decide +kernel
theorem p_texGaussian0 : parse (sides (texGaussian.getD 0 "").toList).2 = some (
    mul (var ['A'] none) (exp (neg (mul (div (num 1) (num 2)) (pow (div (sub (var ['x'] none) (var ['m', 'u'] none)) (var ['s', 'i', 'g', 'm', 'a']
    none)) (num 2)))))) := by decide +kernel
theorem p_texGaussianNorm0 : parse (sides (texGaussianNorm.getD 0 "").toList).2 = some (
    mul (div (var ['n'] none) (mul (sqrt (mul (num 2) pi)) (var ['s', 'i', 'g', 'm', 'a'] none))) (exp (neg (mul (div (num 1) (num 2)) (pow (div (sub
    (var ['x'] none) (var ['m', 'u'] none)) (var ['s', 'i', 'g', 'm', 'a'] none)) (num 2)))))) := by decide +kernel
theorem p_texGaussianLn0 : parse (sides (texGaussianLn.getD 0 "").toList).2 = some (
    mul (var ['A'] none) (exp (div (pow (sub (ln (var ['x'] none)) (var ['m'] none)) (num 2)) (mul (num 2) (pow (var ['s'] none) (num 2)))))) := by decide +kernel
theorem p_texExponential0 : parse (sides (texExponential.getD 0 "").toList).2 = some (
    mul (var ['A'] none) (exp (neg (mul (var ['c'] none) (var ['x'] none))))) := by decide +kernel
theorem p_texExponentialPlusC0 : parse (sides (texExponentialPlusC.getD 0 "").toList).2 = some (
    add (mul (var ['A'] none) (exp (neg (mul (var ['c'] none) (var ['x'] none))))) (var ['d'] none)) := by decide +kernel
theorem p_texExponentialCDF0 : parse (sides (texExponentialCDF.getD 0 "").toList).2 = some (
    mul (var ['A'] none) (sub (num 1) (exp (neg (mul (var ['c'] none) (var ['x'] none)))))) := by decide +kernel
theorem p_texPowerLaw0 : parse (sides (texPowerLaw.getD 0 "").toList).2 = some (
    mul (var ['A'] none) (pow (var ['x'] none) (var ['b'] none))) := by decide +kernel
theorem p_texPowerLawPlusC0 : parse (sides (texPowerLawPlusC.getD 0 "").toList).2 = some (
    add (mul (var ['A'] none) (pow (var ['x'] none) (var ['b'] none))) (var ['c'] none)) := by decide +kernel
theorem p_texPowerLawOffCenter0 : parse (sides (texPowerLawOffCenter.getD 0 "").toList).2 = some (
    mul (var ['A'] none) (pow (sub (var ['x'] none) (var ['x'] (some '0'))) (var ['b'] none))) := by decide +kernel
theorem p_texMoyal0 : parse (sides (texMoyal.getD 0 "").toList).2 = some (
    mul (var ['A'] none) (exp (mul (div (num 1) (num 2)) (sub (pow (div (sub (var ['x'] none) (var ['m', 'u'] none)) (var ['s', 'i', 'g', 'm', 'a']
    none)) (num 2)) (exp (pow (div (sub (var ['x'] none) (var ['m', 'u'] none)) (var ['s', 'i', 'g', 'm', 'a'] none)) (num 2))))))) := by decide +kernel
theorem p_texHeavySide0 : parse (sides (texHeavySide.getD 0 "").toList).2 = some (
    add (mul (var ['y'] (some '1')) (step (sub (var ['x'] (some '0')) (var ['x'] none)))) (var ['y'] (some '0'))) := by decide +kernel
theorem p_texHeavySide1 : parse (sides (texHeavySide.getD 1 "").toList).2 = some (
    add (var ['y'] (some '0')) (var ['y'] (some '1'))) := by decide +kernel
theorem p_texHeavySide2 : parse (sides (texHeavySide.getD 2 "").toList).2 = some (
    var ['y'] (some '0')) := by decide +kernel
theorem p_texGaussianPlusHS : parse (sides (String.intercalate "\n" texGaussianPlusHS).toList).2 = some (
    add (mul (var ['A'] none) (exp (neg (mul (div (num 1) (num 2)) (pow (div (sub (var ['x'] none) (var ['m', 'u'] none)) (var ['s', 'i', 'g', 'm',
    'a'] none)) (num 2)))))) (add (mul (var ['y'] (some '1')) (step (sub (var ['x'] (some '0')) (var ['x'] none)))) (var ['y'] (some '0')))) := by decide +kernel
theorem p_texGaussianTimesHS0 : parse (sides (texGaussianTimesHS.getD 0 "").toList).2 = some (
    mul (mul (var ['A'] none) (exp (neg (mul (div (num 1) (num 2)) (pow (div (sub (var ['x'] none) (var ['m', 'u'] none)) (var ['s', 'i', 'g', 'm',
    'a'] none)) (num 2)))))) (step (sub (var ['x'] none) (var ['x'] (some '0'))))) := by decide +kernel
theorem p_texGaussianTimesPlusHS : parse (sides (String.intercalate "\n" texGaussianTimesPlusHS).toList).2 = some (
    add (mul (mul (var ['A'] none) (exp (neg (mul (div (num 1) (num 2)) (pow (div (sub (var ['x'] none) (var ['m', 'u'] none)) (var ['s', 'i', 'g',
    'm', 'a'] none)) (num 2)))))) (step (sub (var ['x'] none) (var ['x'] (some '0'))))) (mul (var ['y'] (some '1')) (step (sub (var ['x'] (some '0'))
    (var ['x'] none))))) := by decide +kernel
theorem p_texHingeSaturation0 : parse (sides (texHingeSaturation.getD 0 "").toList).2 = some (
    min (var ['y'] (some '1')) (var ['y'] (some '2'))) := by decide +kernel
theorem l_texHingeSaturation1 : parse (sides (texHingeSaturation.getD 1 "").toList).1 = some (
    var ['y'] (some 'i')) := by decide +kernel
theorem p_texHingeSaturation1 : parse (sides (texHingeSaturation.getD 1 "").toList).2 = some (
    mul (var ['m'] (some 'i')) (sub (var ['x'] none) (var ['x'] (some 'i')))) := by decide +kernel
theorem l_texHingeSaturation2 : parse (sides (texHingeSaturation.getD 2 "").toList).1 = some (
    var ['m'] (some '1')) := by decide +kernel
theorem p_texHingeSaturation2 : parse (sides (texHingeSaturation.getD 2 "").toList).2 = some (
    div (var ['y'] (some 'h')) (sub (var ['x'] (some 'h')) (var ['x'] (some '1')))) := by decide +kernel
theorem l_texHingeSaturation3 : parse (sides (texHingeSaturation.getD 3 "").toList).1 = some (
    var ['x'] (some '2')) := by decide +kernel
theorem p_texHingeSaturation3 : parse (sides (texHingeSaturation.getD 3 "").toList).2 = some (
    sub (var ['x'] (some 'h')) (div (var ['y'] (some 'h')) (var ['m'] (some '2')))) := by decide +kernel
theorem p_texTwoLine0 : parse (sides (texTwoLine.getD 0 "").toList).2 = some (
    min (var ['y'] (some '1')) (var ['y'] (some '2'))) := by decide +kernel
theorem l_texTwoLine1 : parse (sides (texTwoLine.getD 1 "").toList).1 = some (
    var ['y'] (some 'i')) := by decide +kernel
theorem p_texTwoLine1 : parse (sides (texTwoLine.getD 1 "").toList).2 = some (
    mul (var ['m'] (some 'i')) (sub (var ['x'] none) (var ['x'] (some 'i')))) := by decide +kernel
theorem p_texSaturation0 : parse (sides (texSaturation.getD 0 "").toList).2 = some (
    min (var ['y'] (some '1')) (var ['y'] (some '2'))) := by decide +kernel
theorem l_texSaturation1 : parse (sides (texSaturation.getD 1 "").toList).1 = some (
    var ['y'] (some 'i')) := by decide +kernel
theorem p_texSaturation1 : parse (sides (texSaturation.getD 1 "").toList).2 = some (
    mul (var ['m'] (some 'i')) (sub (var ['x'] none) (var ['x'] (some 'i')))) := by decide +kernel
theorem l_texSaturation2 : parse (sides (texSaturation.getD 2 "").toList).1 = some (
    var ['x'] (some 's')) := by decide +kernel
theorem p_texSaturation2 : parse (sides (texSaturation.getD 2 "").toList).2 = some (
    div (sub (mul (var ['m'] (some '2')) (var ['x'] (some '2'))) (mul (var ['m'] (some '1')) (var ['x'] (some '1')))) (sub (var ['m'] (some '2')) (var
    ['m'] (some '1')))) := by decide +kernel
theorem l_texSaturation3 : parse (sides (texSaturation.getD 3 "").toList).1 = some (
    var ['s'] none) := by decide +kernel
theorem p_texSaturation3 : parse (sides (texSaturation.getD 3 "").toList).2 = some (
    mul (var ['m'] (some 'i')) (sub (var ['x'] (some 's')) (var ['x'] (some 'i')))) := by decide +kernel
theorem l_texSaturation4 : parse (sides (texSaturation.getD 4 "").toList).1 = some (
    var ['t', 'h', 'e', 't', 'a'] none) := by decide +kernel
theorem p_texSaturation4 : parse (sides (texSaturation.getD 4 "").toList).2 = some (
    arctan (div (sub (var ['m'] (some '1')) (var ['m'] (some '2'))) (add (num 1) (mul (var ['m'] (some '1')) (var ['m'] (some '2')))))) := by decide +kernel
theorem p_texHingeMin0 : parse (sides (texHingeMin.getD 0 "").toList).2 = some (
    min (mul (var ['m'] (some '1')) (sub (var ['x'] none) (var ['x'] (some '1')))) (mul (var ['m'] (some '2')) (sub (var ['x'] none) (var ['x'] (some
    '2'))))) := by decide +kernel
theorem l_texHingeMin1 : parse (sides (texHingeMin.getD 1 "").toList).1 = some (
    var ['m'] (some '2')) := by decide +kernel
theorem p_texHingeMin1 : parse (sides (texHingeMin.getD 1 "").toList).2 = some (
    mul (var ['m'] (some '1')) (div (sub (var ['h'] none) (var ['x'] (some '1'))) (sub (var ['h'] none) (var ['x'] (some '2'))))) := by decide +kernel
theorem p_texHingeMax0 : parse (sides (texHingeMax.getD 0 "").toList).2 = some (
    max (mul (var ['m'] (some '1')) (sub (var ['x'] none) (var ['x'] (some '1')))) (mul (var ['m'] (some '2')) (sub (var ['x'] none) (var ['x'] (some
    '2'))))) := by decide +kernel
theorem l_texHingeMax1 : parse (sides (texHingeMax.getD 1 "").toList).1 = some (
    var ['m'] (some '2')) := by decide +kernel
theorem p_texHingeMax1 : parse (sides (texHingeMax.getD 1 "").toList).2 = some (
    mul (var ['m'] (some '1')) (div (sub (var ['h'] none) (var ['x'] (some '1'))) (sub (var ['h'] none) (var ['x'] (some '2'))))) := by decide +kernel
theorem p_texHingeAtPoint0 : parse (sides (texHingeAtPoint.getD 0 "").toList).2 = some (
    min (var ['y'] (some '1')) (var ['y'] (some '2'))) := by decide +kernel
theorem l_texHingeAtPoint1 : parse (sides (texHingeAtPoint.getD 1 "").toList).1 = some (
    var ['y'] (some 'i')) := by decide +kernel
theorem p_texHingeAtPoint1 : parse (sides (texHingeAtPoint.getD 1 "").toList).2 = some (
    mul (var ['m'] (some 'i')) (sub (var ['x'] none) (var ['x'] (some 'i')))) := by decide +kernel
theorem l_texHingeAtPoint2 : parse (sides (texHingeAtPoint.getD 2 "").toList).1 = some (
    var ['x'] (some 'i')) := by decide +kernel
theorem p_texHingeAtPoint2 : parse (sides (texHingeAtPoint.getD 2 "").toList).2 = some (
    sub (var ['x'] (some 'h')) (div (var ['y'] (some 'h')) (var ['m'] (some 'i')))) := by decide +kernel
end

/-! ## C214 -/

theorem Says.of {text : String} {h0 : ℝ} {ρ : List Char → ℝ} {a : Ast} {v : Fl} (hp : parse (sides text.toList).2 = some a)
    (hv : v = .fin (a.eval h0 '1' ρ)) : Says text h0 ρ v := ⟨a, hp, hv⟩

theorem Holds.out {line : String} {ρ : List Char → ℝ} {a b : Ast} (h : Holds line ρ) (ha : parse (sides line.toList).1 = some a)
    (hb : parse (sides line.toList).2 = some b) : a.eval 0 '1' ρ = b.eval 0 '1' ρ ∧ a.eval 0 '2' ρ = b.eval 0 '2' ρ := by
  obtain ⟨a', b', ha', hb', hh⟩ := h
  rw [ha] at ha'
  rw [hb] at hb'
  injection ha' with ha'
  injection hb' with hb'
  subst ha' hb'
  exact ⟨hh '1' (by simp), hh '2' (by simp)⟩

open Fl

/-- C214: straight lines -/
theorem C214_lines (h0 : ℝ) (ρ : List Char → ℝ) :
    (∀ l ∈ texLine, Says l h0 ρ (lineF (fin (ρ ['x'])) (fin (ρ ['m'])) (fin (ρ ['b'])))) ∧ texLine.length = 1 ∧
    (∀ l ∈ texLineX, Says l h0 ρ (lineXF (fin (ρ ['x'])) (fin (ρ ['m'])) (fin (ρ ['x', '0'])))) ∧ texLineX.length = 1 := by
  refine ⟨?_, rfl, ?_, rfl⟩
  · intro l hl
    have : l = texLine.getD 0 "" := by simpa [texLine] using hl
    subst this
    exact .of p_texLine0 (by simp [Ast.eval, lineF])
  · intro l hl
    have : l = texLineX.getD 0 "" := by simpa [texLineX] using hl
    subst this
    exact .of p_texLineX0 (by simp [Ast.eval, lineXF])

theorem bell_eq (A mu sigma x : ℝ) : bell A mu sigma x = A * Real.exp (-(1 / 2 * ((x - mu) / sigma) ^ 2)) := by
  unfold bell
  congr 2
  ring

/-- C214: Gaussians -/
theorem C214_gaussians (h0 : ℝ) (ρ : List Char → ℝ) (hs : ρ ['s', 'i', 'g', 'm', 'a'] ≠ 0) :
    (∀ l ∈ texGaussian, Says l h0 ρ (gaussianF (fin (ρ ['x'])) (fin (ρ ['m', 'u'])) (fin (ρ ['s', 'i', 'g', 'm', 'a'])) (fin (ρ ['A'])))) ∧
    texGaussian.length = 1 ∧
    (∀ l ∈ texGaussianNorm, Says l h0 ρ
      (gaussianNormF (fin (ρ ['x'])) (fin (ρ ['m', 'u'])) (fin (ρ ['s', 'i', 'g', 'm', 'a'])) (fin (ρ ['n'])))) ∧
    texGaussianNorm.length = 1 := by
  refine ⟨?_, rfl, ?_, rfl⟩
  · intro l hl
    have : l = texGaussian.getD 0 "" := by simpa [texGaussian] using hl
    subst this
    refine .of p_texGaussian0 ?_
    rw [gaussianF_fin _ _ _ _ hs, bell_eq]
    simp [Ast.eval]
  · intro l hl
    have : l = texGaussianNorm.getD 0 "" := by simpa [texGaussianNorm] using hl
    subst this
    refine .of p_texGaussianNorm0 ?_
    unfold gaussianNormF
    have hp : (0:ℝ) < 2 * Real.pi := by positivity
    have hsq : Real.sqrt (2 * Real.pi) * ρ ['s', 'i', 'g', 'm', 'a'] ≠ 0 := mul_ne_zero (Real.sqrt_pos.2 hp).ne' hs
    rw [fin_sub, fin_div _ _ hs, sq_fin, fin_mul, exp_fin, sqrt_fin _ hp.le, fin_mul, fin_div _ _ hsq, fin_mul, neg_div, neg_mul]
    simp [Ast.eval]

/-- C214: exponentials (`A` of the cumulative form is the value given to `set_y0`) -/
theorem C214_exponentials (h0 : ℝ) (ρ : List Char → ℝ) :
    (∀ l ∈ texExponential, Says l h0 ρ (exponentialF (fin (ρ ['x'])) (fin (ρ ['c'])) (fin (ρ ['A'])))) ∧ texExponential.length = 1 ∧
    (∀ l ∈ texExponentialPlusC, Says l h0 ρ (exponentialPlusCF (fin (ρ ['x'])) (fin (ρ ['c'])) (fin (ρ ['A'])) (fin (ρ ['d'])))) ∧
    texExponentialPlusC.length = 1 ∧
    (∀ l ∈ texExponentialCDF, ∃ v, exponentialCDF (some (fin (ρ ['A']))) (fin (ρ ['x'])) (fin (ρ ['c'])) = .ok v ∧ Says l h0 ρ v) ∧
    texExponentialCDF.length = 1 := by
  refine ⟨?_, rfl, ?_, rfl, ?_, rfl⟩
  · intro l hl
    have : l = texExponential.getD 0 "" := by simpa [texExponential] using hl
    subst this
    exact .of p_texExponential0 (by simp [Ast.eval, exponentialF, exp_fin])
  · intro l hl
    have : l = texExponentialPlusC.getD 0 "" := by simpa [texExponentialPlusC] using hl
    subst this
    exact .of p_texExponentialPlusC0 (by simp [Ast.eval, exponentialPlusCF, exp_fin])
  · intro l hl
    have : l = texExponentialCDF.getD 0 "" := by simpa [texExponentialCDF] using hl
    subst this
    exact ⟨_, rfl, .of p_texExponentialCDF0 (by simp [Ast.eval, exp_fin])⟩

/-- C214: power laws, where the base is positive -/
theorem C214_powerLaws (h0 : ℝ) (ρ : List Char → ℝ) :
    (0 < ρ ['x'] → ∀ l ∈ texPowerLaw, Says l h0 ρ (powerLawF (fin (ρ ['x'])) (fin (ρ ['A'])) (ρ ['b']))) ∧ texPowerLaw.length = 1 ∧
    (0 < ρ ['x'] → ∀ l ∈ texPowerLawPlusC, Says l h0 ρ (powerLawPlusCF (fin (ρ ['x'])) (fin (ρ ['A'])) (ρ ['b']) (fin (ρ ['c'])))) ∧
    texPowerLawPlusC.length = 1 ∧
    (ρ ['x', '0'] < ρ ['x'] → ∀ l ∈ texPowerLawOffCenter, Says l h0 ρ
      (powerLawOffCenterF (fin (ρ ['x'])) (fin (ρ ['A'])) (ρ ['b']) (fin (ρ ['x', '0'])))) ∧
    texPowerLawOffCenter.length = 1 := by
  refine ⟨?_, rfl, ?_, rfl, ?_, rfl⟩
  · intro hx l hl
    have : l = texPowerLaw.getD 0 "" := by simpa [texPowerLaw] using hl
    subst this
    exact .of p_texPowerLaw0 (by simp [Ast.eval, powerLawF, rpow_fin _ _ hx])
  · intro hx l hl
    have : l = texPowerLawPlusC.getD 0 "" := by simpa [texPowerLawPlusC] using hl
    subst this
    exact .of p_texPowerLawPlusC0 (by simp [Ast.eval, powerLawPlusCF, rpow_fin _ _ hx])
  · intro hx l hl
    have : l = texPowerLawOffCenter.getD 0 "" := by simpa [texPowerLawOffCenter] using hl
    subst this
    exact .of p_texPowerLawOffCenter0 (by simp [Ast.eval, powerLawOffCenterF, rpow_fin _ _ (sub_pos.2 hx)])

theorem heaviside_fin_ne (a : ℝ) (h : Fl) (ha : a ≠ 0) (h0 : ℝ) :
    Fl.heaviside (fin a) h = fin (if a < 0 then 0 else if a = 0 then h0 else 1) := by
  unfold Fl.heaviside
  by_cases h1 : a < 0 <;> simp [h1, ha]

/-- C214: steps, away from the step; whatever value the reader gives to `H(0)`. The first line and the line for the side of `x` both say
the value of `HeavySide`. -/
theorem C214_steps (h0 : ℝ) (ρ : List Char → ℝ) (hx : ρ ['x'] ≠ ρ ['x', '0']) :
    (∀ l1 l2 l3, texHeavySide = [l1, l2, l3] →
      Says l1 h0 ρ (heavySide (fin (ρ ['x'])) (fin (ρ ['x', '0'])) (fin (ρ ['y', '0'])) (fin (ρ ['y', '1']))) ∧
      (ρ ['x'] < ρ ['x', '0'] →
        Says l2 h0 ρ (heavySide (fin (ρ ['x'])) (fin (ρ ['x', '0'])) (fin (ρ ['y', '0'])) (fin (ρ ['y', '1'])))) ∧
      (ρ ['x', '0'] < ρ ['x'] →
        Says l3 h0 ρ (heavySide (fin (ρ ['x'])) (fin (ρ ['x', '0'])) (fin (ρ ['y', '0'])) (fin (ρ ['y', '1']))))) ∧
    texHeavySide.length = 3 ∧
    (ρ ['s', 'i', 'g', 'm', 'a'] ≠ 0 →
      Says (String.intercalate "\n" texGaussianPlusHS) h0 ρ (gaussianPlusHS (fin (ρ ['x'])) (fin (ρ ['x', '0'])) (fin (ρ ['y', '0']))
        (fin (ρ ['y', '1'])) (fin (ρ ['m', 'u'])) (fin (ρ ['s', 'i', 'g', 'm', 'a'])) (fin (ρ ['A']))) ∧
      Says (String.intercalate "\n" texGaussianTimesHS) h0 ρ (gaussianTimesHS (fin (ρ ['x'])) (fin (ρ ['x', '0']))
        (fin (ρ ['m', 'u'])) (fin (ρ ['s', 'i', 'g', 'm', 'a'])) (fin (ρ ['A']))) ∧
      Says (String.intercalate "\n" texGaussianTimesPlusHS) h0 ρ (gaussianTimesPlusHS (fin (ρ ['x'])) (fin (ρ ['x', '0']))
        (fin (ρ ['y', '1'])) (fin (ρ ['m', 'u'])) (fin (ρ ['s', 'i', 'g', 'm', 'a'])) (fin (ρ ['A'])))) := by
  have h1 : ρ ['x', '0'] - ρ ['x'] ≠ 0 := sub_ne_zero.2 (Ne.symm hx)
  have h2 : ρ ['x'] - ρ ['x', '0'] ≠ 0 := sub_ne_zero.2 hx
  refine ⟨?_, rfl, fun hs => ⟨?_, ?_, ?_⟩⟩
  · intro l1 l2 l3 hl
    have e1 : l1 = texHeavySide.getD 0 "" := by rw [hl]; rfl
    have e2 : l2 = texHeavySide.getD 1 "" := by rw [hl]; rfl
    have e3 : l3 = texHeavySide.getD 2 "" := by rw [hl]; rfl
    subst e1 e2 e3
    refine ⟨.of p_texHeavySide0 ?_, fun hlt => .of p_texHeavySide1 ?_, fun hlt => .of p_texHeavySide2 ?_⟩
    · unfold heavySide
      rw [fin_sub, heaviside_fin_ne _ _ h1 h0]
      simp [Ast.eval]
    · unfold heavySide
      rw [fin_sub, heaviside_fin_ne _ _ h1 h0, if_neg (by linarith), if_neg h1]
      simp [Ast.eval, add_comm]
    · unfold heavySide
      rw [fin_sub, heaviside_fin_ne _ _ h1 h0, if_pos (by linarith)]
      simp [Ast.eval]
  · refine .of p_texGaussianPlusHS ?_
    unfold gaussianPlusHS
    rw [fin_sub, heaviside_fin_ne _ _ h1 h0, gaussianF_fin _ _ _ _ hs, bell_eq]
    simp [Ast.eval]
  · have : String.intercalate "\n" texGaussianTimesHS = texGaussianTimesHS.getD 0 "" := by decide +kernel
    rw [this]
    refine .of p_texGaussianTimesHS0 ?_
    unfold gaussianTimesHS
    rw [fin_sub, heaviside_fin_ne _ _ h2 h0, gaussianF_fin _ _ _ _ hs, bell_eq, fin_mul]
    simp only [Ast.eval]
    simp
  · refine .of p_texGaussianTimesPlusHS ?_
    unfold gaussianTimesPlusHS
    rw [fin_sub, fin_sub, heaviside_fin_ne _ _ h2 h0, heaviside_fin_ne _ _ h1 h0, gaussianF_fin _ _ _ _ hs, bell_eq, fin_mul, fin_mul, fin_add]
    simp only [Ast.eval]
    simp

theorem tan_arctan_sub (a b : ℝ) (h : 1 + a * b ≠ 0) : Real.tan (Real.arctan a - Real.arctan ((a - b) / (1 + a * b))) = b := by
  rw [Real.tan_eq_sin_div_cos, Real.sin_sub, Real.cos_sub, ← Real.tan_mul_cos (Real.cos_arctan_pos a).ne',
    ← Real.tan_mul_cos (Real.cos_arctan_pos ((a - b) / (1 + a * b))).ne', Real.tan_arctan, Real.tan_arctan]
  have ha := (Real.cos_arctan_pos a).ne'
  have hb := (Real.cos_arctan_pos ((a - b) / (1 + a * b))).ne'
  obtain ⟨p, hp⟩ : ∃ p, p = Real.cos (Real.arctan a) := ⟨_, rfl⟩
  obtain ⟨q, hq⟩ : ∃ q, q = Real.cos (Real.arctan ((a - b) / (1 + a * b))) := ⟨_, rfl⟩
  rw [← hp] at ha
  rw [← hq] at hb
  rw [← hp, ← hq]
  have h2 : (1:ℝ) + a ^ 2 ≠ 0 := by positivity
  have e1 : a * p * q - p * ((a - b) / (1 + a * b) * q) = p * q * (b * (1 + a ^ 2)) / (1 + a * b) := by
    field_simp
    ring
  have e2 : p * q + a * p * ((a - b) / (1 + a * b) * q) = p * q * (1 + a ^ 2) / (1 + a * b) := by
    field_simp
    ring
  rw [e1, e2]
  field_simp
  rw [mul_div_assoc, mul_comm b a, div_self h, mul_one]

/-- C214: hinges. The first line gives `f`; the further lines are equations between the names. Where they hold (and no divisor of the
code is zero, and the second slope of `HingeSaturation` is above its flatness threshold), the curve is the printed `f`. -/
theorem C214_hinges (h0 : ℝ) (ρ : List Char → ℝ) :
    ((∀ l ∈ texHingeSaturation.tail, Holds l ρ) → ρ ['x', 'h'] ≠ ρ ['x', '1'] → 1 / 10 ^ 15 < |ρ ['m', '2']| →
      Says (texHingeSaturation.headD "") h0 ρ
        (hingeSaturation (fin (ρ ['x'])) (fin (ρ ['x', 'h'])) (fin (ρ ['y', 'h'])) (fin (ρ ['x', '1'])) (fin (ρ ['m', '2'])))) ∧
    ((∀ l ∈ texTwoLine.tail, Holds l ρ) →
      Says (texTwoLine.headD "") h0 ρ
        (twoLine (fin (ρ ['x'])) (fin (ρ ['x', '1'])) (fin (ρ ['x', '2'])) (fin (ρ ['m', '1'])) (fin (ρ ['m', '2'])))) ∧
    ((∀ l ∈ texSaturation.tail, Holds l ρ) → ρ ['x', 's'] ≠ ρ ['x', '1'] → ρ ['m', '2'] ≠ 0 → 1 + ρ ['m', '1'] * ρ ['m', '2'] ≠ 0 →
      Says (texSaturation.headD "") h0 ρ
        (saturation (fin (ρ ['x'])) (fin (ρ ['x', '1'])) (fin (ρ ['x', 's'])) (fin (ρ ['s'])) (fin (ρ ['t', 'h', 'e', 't', 'a'])))) ∧
    ((∀ l ∈ texHingeMin.tail, Holds l ρ) → ρ ['h'] ≠ ρ ['x', '2'] →
      Says (texHingeMin.headD "") h0 ρ
        (hingeMin (fin (ρ ['x'])) (fin (ρ ['m', '1'])) (fin (ρ ['x', '1'])) (fin (ρ ['x', '2'])) (fin (ρ ['h'])))) ∧
    ((∀ l ∈ texHingeMax.tail, Holds l ρ) → ρ ['h'] ≠ ρ ['x', '2'] →
      Says (texHingeMax.headD "") h0 ρ
        (hingeMax (fin (ρ ['x'])) (fin (ρ ['m', '1'])) (fin (ρ ['x', '1'])) (fin (ρ ['x', '2'])) (fin (ρ ['h'])))) ∧
    ((∀ l ∈ texHingeAtPoint.tail, Holds l ρ) → ρ ['m', '1'] ≠ 0 → ρ ['m', '2'] ≠ 0 →
      Says (texHingeAtPoint.headD "") h0 ρ
        (hingeAtPoint (fin (ρ ['x'])) (fin (ρ ['x', 'h'])) (fin (ρ ['y', 'h'])) (fin (ρ ['m', '1'])) (fin (ρ ['m', '2'])))) := by
  refine ⟨fun H hx hm => ?_, fun H => ?_, fun H hx hm hd => ?_, fun H hx => ?_, fun H hx => ?_, fun H hm1 hm2 => ?_⟩
  · have e1 := (H _ (by decide : texHingeSaturation.getD 1 "" ∈ _)).out l_texHingeSaturation1 p_texHingeSaturation1
    have e2 := (H _ (by decide : texHingeSaturation.getD 2 "" ∈ _)).out l_texHingeSaturation2 p_texHingeSaturation2
    have e3 := (H _ (by decide : texHingeSaturation.getD 3 "" ∈ _)).out l_texHingeSaturation3 p_texHingeSaturation3
    simp [Ast.eval] at e1 e2 e3
    refine .of p_texHingeSaturation0 ?_
    have hm2 : ρ ['m', '2'] ≠ 0 := by
      intro h
      rw [h, abs_zero] at hm
      have : (0:ℝ) < 1 / 10 ^ 15 := by positivity
      linarith
    unfold hingeSaturation
    have hbig : Fl.lt (fin (1 / 10 ^ 15)) (fin (ρ ['m', '2'])).abs := hm
    simp only [if_pos hbig]
    rw [fin_sub, fin_div _ _ (sub_ne_zero.2 hx), fin_div _ _ hm2]
    simp only [fin_sub, fin_mul, minimum_fin]
    rw [← e2, ← e3, ← e1.1, ← e1.2]
    simp [Ast.eval]
  · have e1 := (H _ (by decide : texTwoLine.getD 1 "" ∈ _)).out l_texTwoLine1 p_texTwoLine1
    simp [Ast.eval] at e1
    refine .of p_texTwoLine0 ?_
    unfold twoLine
    simp only [fin_sub, fin_mul, minimum_fin]
    rw [← e1.1, ← e1.2]
    simp [Ast.eval]
  · have e1 := (H _ (by decide : texSaturation.getD 1 "" ∈ _)).out l_texSaturation1 p_texSaturation1
    have e3 := (H _ (by decide : texSaturation.getD 3 "" ∈ _)).out l_texSaturation3 p_texSaturation3
    have e4 := (H _ (by decide : texSaturation.getD 4 "" ∈ _)).out l_texSaturation4 p_texSaturation4
    simp [Ast.eval] at e1 e3 e4
    refine .of p_texSaturation0 ?_
    have hm1 : satM1 (fin (ρ ['x', '1'])) (fin (ρ ['x', 's'])) (fin (ρ ['s'])) = fin (ρ ['m', '1']) := by
      unfold satM1
      rw [fin_sub, fin_div _ _ (sub_ne_zero.2 hx), fin_inj, div_eq_iff (sub_ne_zero.2 hx)]
      exact e3.1
    have htan : Real.tan (Real.arctan (ρ ['m', '1']) - ρ ['t', 'h', 'e', 't', 'a']) = ρ ['m', '2'] := by
      rw [e4]
      exact tan_arctan_sub _ _ hd
    have hm2 : satM2 (fin (ρ ['x', '1'])) (fin (ρ ['x', 's'])) (fin (ρ ['s'])) (fin (ρ ['t', 'h', 'e', 't', 'a'])) = fin (ρ ['m', '2']) := by
      unfold satM2
      rw [hm1, ← htan]
      rfl
    have hx2 : satX2 (fin (ρ ['x', '1'])) (fin (ρ ['x', 's'])) (fin (ρ ['s'])) (fin (ρ ['t', 'h', 'e', 't', 'a'])) = fin (ρ ['x', '2']) := by
      unfold satX2
      rw [hm2, fin_div _ _ hm, fin_sub, fin_inj]
      rw [e3.2]
      field_simp
      ring
    unfold saturation
    rw [hm1, hm2, hx2]
    simp only [fin_sub, fin_mul, minimum_fin]
    rw [← e1.1, ← e1.2]
    simp [Ast.eval]
  · have e1 := (H _ (by decide : texHingeMin.getD 1 "" ∈ _)).out l_texHingeMin1 p_texHingeMin1
    simp [Ast.eval] at e1
    refine .of p_texHingeMin0 ?_
    unfold hingeMin hingeM2
    simp only [fin_sub, fin_mul]
    rw [fin_div _ _ (sub_ne_zero.2 hx), mul_div_assoc, ← e1, fin_mul, minimum_fin]
    simp [Ast.eval]
  · have e1 := (H _ (by decide : texHingeMax.getD 1 "" ∈ _)).out l_texHingeMax1 p_texHingeMax1
    simp [Ast.eval] at e1
    refine .of p_texHingeMax0 ?_
    unfold hingeMax hingeM2
    simp only [fin_sub, fin_mul]
    rw [fin_div _ _ (sub_ne_zero.2 hx), mul_div_assoc, ← e1, fin_mul, maximum_fin]
    simp [Ast.eval]
  · have e1 := (H _ (by decide : texHingeAtPoint.getD 1 "" ∈ _)).out l_texHingeAtPoint1 p_texHingeAtPoint1
    have e2 := (H _ (by decide : texHingeAtPoint.getD 2 "" ∈ _)).out l_texHingeAtPoint2 p_texHingeAtPoint2
    simp [Ast.eval] at e1 e2
    refine .of p_texHingeAtPoint0 ?_
    unfold hingeAtPoint
    rw [fin_div _ _ hm1, fin_div _ _ hm2]
    simp only [fin_sub, fin_mul, minimum_fin]
    rw [← e2.1, ← e2.2, ← e1.1, ← e1.2]
    simp [Ast.eval]

theorem Holds.of {line : String} {ρ : List Char → ℝ} {a b : Ast} (ha : parse (sides line.toList).1 = some a)
    (hb : parse (sides line.toList).2 = some b) (h1 : a.eval 0 '1' ρ = b.eval 0 '1' ρ) (h2 : a.eval 0 '2' ρ = b.eval 0 '2' ρ) :
    Holds line ρ := by
  refine ⟨a, b, ha, hb, fun i hi => ?_⟩
  rcases List.mem_cons.1 hi with rfl | hi
  · exact h1
  · rw [List.mem_singleton.1 hi]
    exact h2

/-- values of the names: two lines of slopes 1 and 1/2 through 0 and -1 that meet at (1, 1), at the abscissa 3 -/
noncomputable def toyNames (n : List Char) : ℝ :=
  if n = ['x'] then 3 else if n = ['m', '1'] then 1 else if n = ['x', '1'] then 0 else if n = ['m', '2'] then 1 / 2
  else if n = ['x', '2'] then -1 else if n = ['y', '1'] then 3 else if n = ['y', '2'] then 2
  else if n = ['t', 'h', 'e', 't', 'a'] then Real.arctan ((1 / 2) / (3 / 2)) else 1

/-- the hypotheses of `C214_hinges` are met together, with a value that is not the hinge's -/
example : (∀ l ∈ texHingeSaturation.tail, Holds l toyNames) ∧ (∀ l ∈ texTwoLine.tail, Holds l toyNames) ∧
    (∀ l ∈ texSaturation.tail, Holds l toyNames) ∧ (∀ l ∈ texHingeMin.tail, Holds l toyNames) ∧
    (∀ l ∈ texHingeMax.tail, Holds l toyNames) ∧ (∀ l ∈ texHingeAtPoint.tail, Holds l toyNames) ∧
    toyNames ['x', 'h'] ≠ toyNames ['x', '1'] ∧ 1 / 10 ^ 15 < |toyNames ['m', '2']| ∧ toyNames ['x', 's'] ≠ toyNames ['x', '1'] ∧
    1 + toyNames ['m', '1'] * toyNames ['m', '2'] ≠ 0 ∧ toyNames ['h'] ≠ toyNames ['x', '2'] ∧ toyNames ['m', '1'] ≠ 0 := by
  have sat : texHingeSaturation.tail = [texHingeSaturation.getD 1 "", texHingeSaturation.getD 2 "", texHingeSaturation.getD 3 ""] := rfl
  have two : texTwoLine.tail = [texTwoLine.getD 1 ""] := rfl
  have st : texSaturation.tail = [texSaturation.getD 1 "", texSaturation.getD 2 "", texSaturation.getD 3 "", texSaturation.getD 4 ""] := rfl
  have mn : texHingeMin.tail = [texHingeMin.getD 1 ""] := rfl
  have mx : texHingeMax.tail = [texHingeMax.getD 1 ""] := rfl
  have atp : texHingeAtPoint.tail = [texHingeAtPoint.getD 1 "", texHingeAtPoint.getD 2 ""] := rfl
  rw [sat, two, st, mn, mx, atp]
  refine ⟨?_, ?_, ?_, ?_, ?_, ?_, ?_, ?_, ?_, ?_, ?_, ?_⟩
  · simp only [List.forall_mem_cons, List.forall_mem_nil]
    exact ⟨.of l_texHingeSaturation1 p_texHingeSaturation1 (by simp [Ast.eval, toyNames] <;> norm_num) (by simp [Ast.eval, toyNames] <;> norm_num),
      .of l_texHingeSaturation2 p_texHingeSaturation2 (by simp [Ast.eval, toyNames] <;> norm_num) (by simp [Ast.eval, toyNames] <;> norm_num),
      .of l_texHingeSaturation3 p_texHingeSaturation3 (by simp [Ast.eval, toyNames] <;> norm_num) (by simp [Ast.eval, toyNames] <;> norm_num), by simp⟩
  · simp only [List.forall_mem_cons, List.forall_mem_nil]
    exact ⟨.of l_texTwoLine1 p_texTwoLine1 (by simp [Ast.eval, toyNames] <;> norm_num) (by simp [Ast.eval, toyNames] <;> norm_num), by simp⟩
  · simp only [List.forall_mem_cons, List.forall_mem_nil]
    exact ⟨.of l_texSaturation1 p_texSaturation1 (by simp [Ast.eval, toyNames] <;> norm_num) (by simp [Ast.eval, toyNames] <;> norm_num),
      .of l_texSaturation2 p_texSaturation2 (by simp [Ast.eval, toyNames] <;> norm_num) (by simp [Ast.eval, toyNames] <;> norm_num),
      .of l_texSaturation3 p_texSaturation3 (by simp [Ast.eval, toyNames] <;> norm_num) (by simp [Ast.eval, toyNames] <;> norm_num),
      .of l_texSaturation4 p_texSaturation4 (by simp [Ast.eval, toyNames] <;> norm_num) (by simp [Ast.eval, toyNames] <;> norm_num), by simp⟩
  · simp only [List.forall_mem_cons, List.forall_mem_nil]
    exact ⟨.of l_texHingeMin1 p_texHingeMin1 (by simp [Ast.eval, toyNames] <;> norm_num) (by simp [Ast.eval, toyNames] <;> norm_num), by simp⟩
  · simp only [List.forall_mem_cons, List.forall_mem_nil]
    exact ⟨.of l_texHingeMax1 p_texHingeMax1 (by simp [Ast.eval, toyNames] <;> norm_num) (by simp [Ast.eval, toyNames] <;> norm_num), by simp⟩
  · simp only [List.forall_mem_cons, List.forall_mem_nil]
    exact ⟨.of l_texHingeAtPoint1 p_texHingeAtPoint1 (by simp [Ast.eval, toyNames] <;> norm_num) (by simp [Ast.eval, toyNames] <;> norm_num),
      .of l_texHingeAtPoint2 p_texHingeAtPoint2 (by simp [Ast.eval, toyNames] <;> norm_num) (by simp [Ast.eval, toyNames] <;> norm_num), by simp⟩
  all_goals simp [toyNames] <;> norm_num

/-- and the value said there is 2, the smaller of the two lines at 3 -/
example : ∃ a, parse (sides (texHingeMin.headD "").toList).2 = some a ∧ a.eval 0 '1' toyNames = 2 :=
  ⟨_, p_texHingeMin0, by simp [Ast.eval, toyNames] <;> norm_num⟩

/-- C214 (violated): the formulas printed by `GaussianLn` and `Moyal`, where they can be read, say another value than the curve's: for
`GaussianLn` at every `x ≠ e^m`, for `Moyal` at the centre. -/
theorem C214_wrong (h0 : ℝ) (ρ : List Char → ℝ) (hA : ρ ['A'] ≠ 0) :
    (0 < ρ ['x'] → ρ ['s'] ≠ 0 → ρ ['x'] ≠ Real.exp (ρ ['m']) → ∀ l ∈ texGaussianLn,
      (∃ v, Says l h0 ρ v) ∧ ¬ Says l h0 ρ (gaussianLnF (fin (ρ ['x'])) (fin (ρ ['m'])) (fin (ρ ['s'])) (fin (ρ ['A'])))) ∧
    texGaussianLn.length = 1 ∧
    (ρ ['s', 'i', 'g', 'm', 'a'] ≠ 0 → ρ ['x'] = ρ ['m', 'u'] → ∀ l ∈ texMoyal,
      (∃ v, Says l h0 ρ v) ∧
      ¬ Says l h0 ρ (moyalF (fin (ρ ['x'])) (fin (ρ ['m', 'u'])) (fin (ρ ['s', 'i', 'g', 'm', 'a'])) (fin (ρ ['A'])))) ∧
    texMoyal.length = 1 := by
  refine ⟨?_, rfl, ?_, rfl⟩
  · intro hx hs hxm l hl
    have : l = texGaussianLn.getD 0 "" := by simpa [texGaussianLn] using hl
    subst this
    refine ⟨⟨_, .of p_texGaussianLn0 rfl⟩, ?_⟩
    rintro ⟨a, ha, hv⟩
    rw [p_texGaussianLn0] at ha
    injection ha with ha
    subst ha
    apply (C101_reported_formula 0 1 (ρ ['A']) one_ne_zero hA).2 (ρ ['x']) (ρ ['m']) (ρ ['s']) hx hs hxm
    rw [hv]
    unfold gaussianLnTeX
    rw [Fl.log_fin _ hx, fin_sub, sq_fin, sq_fin, fin_mul, fin_div _ _ (by positivity), exp_fin, fin_mul]
    simp [Ast.eval]
  · intro hs hx l hl
    have : l = texMoyal.getD 0 "" := by simpa [texMoyal] using hl
    subst this
    refine ⟨⟨_, .of p_texMoyal0 rfl⟩, ?_⟩
    rintro ⟨a, ha, hv⟩
    rw [p_texMoyal0] at ha
    injection ha with ha
    subst ha
    apply (C101_reported_formula (ρ ['m', 'u']) (ρ ['s', 'i', 'g', 'm', 'a']) (ρ ['A']) hs hA).1
    rw [hx] at hv
    rw [hv]
    unfold moyalTeX
    simp only [fin_sub]
    rw [fin_div _ _ hs, sq_fin, exp_fin, fin_sub, fin_mul, exp_fin, fin_mul]
    simp [Ast.eval, hx]

/-- every line of every formula meets the hypotheses of the annotation theorem (`C212_text`) -/
theorem C214_shown : ∀ t ∈ texAll, t ≠ [] ∧ ∀ l ∈ t, Shown1 l.toList := by
  unfold Shown1 PlainName Calm NoPair NoPm NoInf
  decide +kernel

end Tex
end SW
