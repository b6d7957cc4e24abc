import Verif.Model.Core
/-!
# Conventions from csv files (sofar/update_conventions.py `_convention_csv2dict`)
-/
namespace Sofar

/-- White space for `str.strip` (sofar/update_conventions.py:262, 266, 285, 298). -/
def isSpaceC (c : Char) : Bool :=
  let n := c.toNat
  (9 ≤ n && n ≤ 13) || (28 ≤ n && n ≤ 32) || n == 0x85 || n == 0xa0 || n == 0x1680 || (0x2000 ≤ n && n ≤ 0x200a)
    || n == 0x2028 || n == 0x2029 || n == 0x202f || n == 0x205f || n == 0x3000

/-- `s.strip()` (sofar/update_conventions.py:262, 266, 285, 298) -/
def strip (s : Str) : Str := ((s.dropWhile isSpaceC).reverse.dropWhile isSpaceC).reverse

/-- Line breaks in text mode (sofar/update_conventions.py:253-254): `\r\n` and `\r` are read as `\n`. The flag tells
that the last character was `\r`. -/
def universalNewlines : Bool → Str → Str
  | _, [] => []
  | cr, c :: t =>
    if c = '\r' then '\n' :: universalNewlines true t
    else if c = '\n' && cr then universalNewlines false t
    else c :: universalNewlines false t

/-- `fid.readlines()` (sofar/update_conventions.py:254): all lines with their line breaks -/
def readlines : Str → List Str
  | [] => []
  | c :: t =>
    if c = '\n' then [c] :: readlines t
    else
      match readlines t with
      | [] => [[c]]
      | l :: ls => (c :: l) :: ls

/-- Python numbers: `int` and `float` (sofar/update_conventions.py:275, 290, 302) -/
inductive Number where
  | int (i : Int)
  | float (x : Num)
deriving DecidableEq

/-- Values of a row (sofar/update_conventions.py:266, 276, 290, 302, 325, 328, 330): `None`, text, numbers, (nested) lists of numbers, and lists of
text -/
inductive Cell where
  | empty
  | text (s : Str)
  | num (n : Number)
  | list (l : List Number)
  | nested (l : List (List Number))
  | deep (l : List (List (List Number)))
  | texts (l : List Str)
deriving DecidableEq

instance : DecidableEq (Dict Cell) := inferInstance
instance : DecidableEq (Dict (Dict Cell)) := inferInstance

/-- Functions of Python that are used for reading csv files and are not modelled.
(sofar/update_conventions.py:252-341) -/
structure Lang where
  /-- decoding of bytes with windows-1252 (sofar/update_conventions.py:253); bytes are given as characters -/
  decode : Str → Except Exc Str
  /-- `int(s)` (sofar/update_conventions.py:275, 290, 302), `none` for ValueError -/
  int : Str → Option Int
  /-- `float(s)` (sofar/update_conventions.py:275, 290, 302), `none` for ValueError -/
  float : Str → Option Num
  /-- `str(float(n))` (sofar/update_conventions.py:333), `none` for OverflowError -/
  strFloat : Number → Option Str

/-- sofar/update_conventions.py:275, 290, 302: `float(n) if '.' in n else int(n)` -/
def Lang.number (lang : Lang) (s : Str) : Option Number :=
  if s.contains '.' then (lang.float s).map .float else (lang.int s).map .int

/-- sofar/update_conventions.py:284-290, 297-303: numbers separated by commas or spaces. -/
def numberList (lang : Lang) (s : Str) : Option (List Number) :=
  (Str.splitChar ',' (Str.replaceChar (strip s) ' ' ',')).mapM lang.number

/-- sofar/update_conventions.py:264-308, one cell of a row; `none` for any exception -/
def parseCell (lang : Lang) (cell : Str) : Option Cell :=
  if cell.all (· == ' ') then some .empty
  else
    match strip cell with
    | [] => none
    | '[' :: rest =>
      if (Str.dropEnd rest 1).contains ';' then
        ((Str.splitChar ';' (Str.dropEnd rest 1)).mapM (numberList lang)).map .nested
      else (numberList lang (Str.dropEnd rest 1)).map .list
    | c :: rest =>
      match lang.number (c :: rest) with
      | some n => some (.num n)
      | none => some (.text (c :: rest))

/-- sofar/update_conventions.py:262-308: the cells of a row -/
def parseRow (lang : Lang) (line : Str) : Option (List Cell) :=
  (Str.splitChar '\t' (strip line)).mapM (parseCell lang)

/-- sofar/update_conventions.py:318-330: default values -/
def cellDefault (c : Cell) : Cell :=
  let z : List Number := [.int 0, .int 0, .int 0, .int 1, .int 0, .int 0]
  match c with
  | .empty => .text []
  | .text s =>
    if s = py% "permute([0 0 0 1 0 0; 0 0 0 1 0 0], [3 1 2]);" then .deep [[z, z]]
    else if s = py% "permute([0 0 0 1 0 0], [3 1 2]);" then .deep [[z]]
    else if s = py% "{''}" then .texts [[]]
    else .text s
  | c => c

/-- sofar/update_conventions.py:331-333: versions are converted to text -/
def cellVersion (lang : Lang) (name : Str) (c : Cell) : Option Cell :=
  if Str.hasSub name (py% "Version") then
    match c with
    | .text s => some (.text s)
    | .num n => (lang.strFloat n).map .text
    | _ => none
  else some c

/-- sofar/update_conventions.py:337-338: the fields of an entry; all field names have to be text -/
def fillFields : List Cell → List Cell → Dict Cell → Option (Dict Cell)
  | [], _, d => some d
  | .text f :: fs, c :: cs, d => fillFields fs cs (Dict.put d (Str.lower f) c)
  | _, _, _ => none

/-- sofar/update_conventions.py:315-338: name and entry from a row. Names have to be text. -/
def rowEntry (lang : Lang) (fields row : List Cell) : Option (Str × Dict Cell) :=
  match (if row.length = 5 then row ++ [.text []] else row) with
  | .text name :: default :: rest =>
    match cellVersion lang name (cellDefault default) with
    | none => none
    | some c => (fillFields fields (c :: rest) []).map (fun e => (name, e))
  | _ => none

/-- sofar/update_conventions.py:258-342 without the first line -/
def csvRows (lang : Lang) (fields : List Cell) : List Str → Dict (Dict Cell) → Option (Dict (Dict Cell))
  | [], d => some d
  | l :: ls, d =>
    match parseRow lang l with
    | none => none
    | some row =>
      match rowEntry lang fields row with
      | none => none
      | some (name, e) => csvRows lang fields ls (Dict.put d name e)

/-- sofar/update_conventions.py:256-342: all rows; the first one contains the names of the fields -/
def csvTable (lang : Lang) : List Str → Option (Dict (Dict Cell))
  | [] => some []
  | l :: ls =>
    match parseRow lang l with
    | none => none
    | some row => csvRows lang row.tail ls []

/-- sofar/update_conventions.py:349, 353: `convention[key] = convention.pop(key)` -/
def moveToEnd {V : Type} (d : Dict V) (k : Str) : Dict V :=
  match Dict.get? d k with
  | some v => Dict.put (Dict.del d k) k v
  | none => d

/-- sofar/update_conventions.py:344-353 -/
def reorder {V : Type} (d : Dict V) : Dict V :=
  let keys := Dict.keys d
  let d1 := keys.foldl (fun d k => if Str.hasSub k (py% "GLOBAL") then d else moveToEnd d k) d
  keys.foldl (fun d k => if Str.startsWith k (py% "Data") then moveToEnd d k else d) d1

/-- sofar/update_conventions.py:224-355 `_convention_csv2dict` for the content of a file. All exceptions of the loop
are converted to ValueError. -/
def csv2dict (lang : Lang) (content : Str) : Except Exc (Dict (Dict Cell)) :=
  match lang.decode content with
  | .error e => .error e
  | .ok t =>
    match csvTable lang (readlines (universalNewlines false t)) with
    | none => .error (.valueError (py% "Failed to parse line"))
    | some d => .ok (reorder d)

end Sofar
