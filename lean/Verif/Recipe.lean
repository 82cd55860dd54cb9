import Verif.Scripts

/-!
# Model: writing the conda recipe and reading dependency lists

`scripts/update_conda_recipe.py` and the two readers of `scripts/compare_feedstock_deps.py`.  Text is a list of characters; the regular
expressions are hand-written readers (`\s` restricted to ASCII).  Building the archive, hashing and TOML parsing are not modelled.
-/

namespace SW
namespace Recipe

open Scripts

abbrev Txt := List Char

/-- one dependency line, scripts/update_conda_recipe.py:113 -/
def depLine (d : Txt) : Txt := "    - ".toList ++ d

/-- the lines of `render_meta`, scripts/update_conda_recipe.py:113-151: the text is these joined by newlines -/
def recipeLines (name ver sha : Txt) (deps : List Txt) : List Txt :=
  ["{% set name = \"".toList ++ name ++ "\" %}".toList,
   "{% set version = \"".toList ++ ver ++ "\" %}".toList,
   "".toList,
   "package:".toList,
   "  name: {{ name|lower }}".toList,
   "  version: {{ version }}".toList,
   "".toList,
   "source:".toList,
   "  url: https://pypi.io/packages/source/{{ name[0] }}/{{ name }}/{{ name }}-{{ version }}.tar.gz".toList,
   "  sha256: ".toList ++ sha,
   "".toList,
   "build:".toList,
   "  noarch: python".toList,
   "  number: 0".toList,
   "  script: \"{{ PYTHON }} -m pip install . -vv\"".toList,
   "".toList,
   "requirements:".toList,
   "  host:".toList,
   "    - python".toList,
   "    - pip".toList,
   "  run:".toList] ++
  ("python".toList :: deps).map depLine ++
  ["".toList,
   "test:".toList,
   "  imports:".toList,
   "    - ".toList ++ name,
   "".toList,
   "about:".toList,
   "  home: https://github.com/blalterman/SolarWindPy".toList,
   "  license: BSD-3-Clause".toList,
   "  license_file: LICENSE.rst".toList,
   "  summary: \"Python package for solar wind data analysis.\"".toList,
   "".toList,
   "extra:".toList,
   "  recipe-maintainers:".toList,
   "    - blalterman".toList,
   "".toList]

/-- `render_meta`, scripts/update_conda_recipe.py:94-151 -/
def render (name ver sha : Txt) (deps : List Txt) : Txt := Chars.join '\n' (recipeLines name ver sha deps)

/-- `sdist.name[len(f"{name}-"):-7]`, scripts/update_conda_recipe.py:161-162 -/
def sdistVersion (name file : Txt) : Txt := (file.dropLast.dropLast.dropLast.dropLast.dropLast.dropLast.dropLast).drop (name.length + 1)

/-- the recipe `main` writes, scripts/update_conda_recipe.py:154-166, with `parse_dependencies` (73-91): `deps` as listed in the project file,
`file` the name of the archive built and `sha` its hash -/
def recipeMain (name file sha : Txt) (deps : List Txt) : Txt := render name (sdistVersion name file) sha (deps.map stripWs)

/-! ### extract_feedstock_deps -/

/-- `    - [^\n]+` as a whole line -/
def itemLine (l : Txt) : Bool := "    - ".toList.isPrefixOf l && decide (6 < l.length)

/-- `\s*\n((?:    - [^\n]+\n)+)` at the beginning of the text: the lines of the group.  White space may be given back by `\s*`, but a line of
the group has no white space after its dash's place, so the newline is the last one of the white space. -/
def runItems (s : Txt) : Option (List Txt) :=
  let ws := s.takeWhile isWs
  if '\n' ∈ ws then
    let tail := (ws.reverse.takeWhile (· ≠ '\n')).reverse ++ s.dropWhile isWs
    match ((Chars.split '\n' tail).dropLast).takeWhile itemLine with
    | [] => none
    | l => some l
  else none

/-- `re.search(r'run:\s*\n((?:    - [^\n]+\n)+)', content)`, scripts/compare_feedstock_deps.py:75-79 -/
def searchRun : Txt → Option (List Txt)
  | [] => none
  | c :: cs =>
    if "run:".toList.isPrefixOf (c :: cs) then
      match runItems ((c :: cs).drop 4) with
      | some l => some l
      | none => searchRun cs
    else searchRun cs

/-- `extract_feedstock_deps`, scripts/compare_feedstock_deps.py:72-96 -/
def feedstockDeps (content : Txt) : List Txt :=
  match searchRun content with
  | none => []
  | some ls => (ls.map (fun l => stripWs (l.drop 6))).filter (fun d => !"{{".toList.isPrefixOf d && !d.isEmpty)

/-! ### extract_pyproject_deps -/

/-- `\s*=\s*\[(.*?)\]` at the beginning of the text: the group -/
def bracketed (s : Txt) : Option Txt :=
  match takeLit '=' (s.dropWhile isWs) with
  | none => none
  | some r => match takeLit '[' (r.dropWhile isWs) with
    | none => none
    | some r => if ']' ∈ r then some (r.takeWhile (· ≠ ']')) else none

/-- `re.search(r'dependencies\s*=\s*\[(.*?)\]', content)`, scripts/compare_feedstock_deps.py:26-30 -/
def searchDeps : Txt → Option Txt
  | [] => none
  | c :: cs =>
    if "dependencies".toList.isPrefixOf (c :: cs) then
      match bracketed ((c :: cs).drop 12) with
      | some l => some l
      | none => searchDeps cs
    else searchDeps cs

/-- `re.findall(r'"([^"]+)"', section)`, scripts/compare_feedstock_deps.py:37; `cur` holds the characters since the last quote that may open an
item, `none` outside.  Two quotes in a row: the second one may open an item. -/
def quoted : Option Txt → Txt → List Txt
  | _, [] => []
  | none, c :: cs => if c = '"' then quoted (some []) cs else quoted none cs
  | some acc, c :: cs =>
    if c = '"' then (if acc = [] then quoted (some []) cs else acc :: quoted none cs)
    else quoted (some (acc ++ [c])) cs

/-- `extract_pyproject_deps`, scripts/compare_feedstock_deps.py:21-47 -/
def pyprojectDeps (content : Txt) : List Txt :=
  match searchDeps content with
  | none => []
  | some sec => ((quoted none sec).map stripWs).filter (fun d => !d.isEmpty)

end Recipe
end SW
