/- The parser of the Steam reviews (`/repo/load_data.py: parse_lines_steam`). -/
import Verif.Model.LoadFiles

namespace DynCF

/-- What `ast.literal_eval` returns (Python literals without bytes, sets and complex numbers); a dict is given by its
pairs in the order of the text, a key may occur several times. -/
inductive PyLit where
  | none
  | bool (b : Bool)
  | num (q : ℚ)
  | str (s : String)
  | list (l : List PyLit)
  | tup (l : List PyLit)
  | dict (l : List (PyLit × PyLit))

/-- The pairs of a dict whose key is a string, in the order of the text. -/
def strPairs : List (PyLit × PyLit) → List (String × PyLit)
  | [] => []
  | (.str k, v) :: l => (k, v) :: strPairs l
  | _ :: l => strPairs l

/-- `{key: dct[key] for key in fields}` (load_data.py:74), the values in the order of `fields`. The other literals refuse a
string as index with `TypeError`. -/
def steamRow (fields : List String) : PyLit → PyM (List PyLit)
  | .dict l => fields.mapM fun key => (Dict.update [] (strPairs l)).getItem key
  | _ => fields.mapM fun _ => .error .typeError

/-- One line of the file: `literal line` is `literal_eval(line.strip())` (load_data.py:73-74). -/
def steamLine (literal : String → PyM PyLit) (fields : List String) (line : String) : PyM (List PyLit) := do
  let dct ← literal line
  steamRow fields dct

/-- `pd.DataFrame.from_records(parse_lines_steam(temp_file, fields), columns=fields)` (load_data.py:70-74, 109): the lines
are parsed one after the other. -/
def steamRows (literal : String → PyM PyLit) (fields : List String) (lines : List String) : PyM (List (List PyLit)) :=
  lines.mapM (steamLine literal fields)

/-- `fields` (load_data.py:108) -/
def steamFields : List String := ["username", "product_id", "date"]

/-- `load_steam` from the temporary file to the text of the csv (load_data.py:108-121): `lines` is `gzip.open(path, 'rt')`
with the iteration over the lines, `table` stands for lines 110-121 (`loadSteam` in `PrepareFiles` models 110-116). -/
def steamCsvOf {C : Type} (lines : C → PyM (List String)) (literal : String → PyM PyLit)
    (table : List (List PyLit) → PyM C) (raw : C) : PyM C := do
  let ls ← lines raw
  let rows ← steamRows literal steamFields ls
  table rows

end DynCF
