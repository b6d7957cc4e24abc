import Verif.Model.Compiled
import Verif.Model.Lists
/-!
# Json text of the conventions

Conventions are written with `json.dump(convention, file, indent=4)` (sofar/update_conventions.py:221) and read with
`json.load(file)` (sofar/sofa.py:1713). This is the code of the module `json` of the standard library for these arguments
(`encoder.py` and `decoder.py`, `scanner.py`). Not modelled: the limits of Python on the depth of recursion and on the number of
digits of integers, and text with single surrogates.
-/
namespace Sofar

/-- Python values that `json` writes and reads. (sofar/update_conventions.py:221, sofar/sofa.py:1713) -/
inductive Json where
  | null
  | bool (b : Bool)
  | int (i : Int)
  | float (x : Num)
  | str (s : Str)
  | arr (l : List Json)
  | obj (d : List (Str × Json))

/-! ## Writing -/

/-- `'{0:x}'` of one digit (`encode_basestring_ascii`, used in sofar/update_conventions.py:221) -/
def hexDigit (n : Nat) : Char := if n < 10 then Char.ofNat (48 + n) else Char.ofNat (87 + n)

/-- `'\\u{0:04x}'` (`encode_basestring_ascii`, used in sofar/update_conventions.py:221) -/
def uEscape (n : Nat) : Str :=
  ['\\', 'u', hexDigit (n / 4096 % 16), hexDigit (n / 256 % 16), hexDigit (n / 16 % 16), hexDigit (n % 16)]

/-- the 16 bit numbers of a character, two for characters beyond 0xffff (`encode_basestring_ascii`, used in
sofar/update_conventions.py:221) -/
def charUnits (c : Char) : List Nat :=
  if c.toNat < 0x10000 then [c.toNat]
  else [0xd800 + (c.toNat - 0x10000) / 1024 % 1024, 0xdc00 + (c.toNat - 0x10000) % 1024]

/-- one character of a text (`encode_basestring_ascii`, used in sofar/update_conventions.py:221) -/
def dumpChar (c : Char) : Str :=
  if c = '"' then ['\\', '"']
  else if c = '\\' then ['\\', '\\']
  else if c = '\n' then ['\\', 'n']
  else if c = '\r' then ['\\', 'r']
  else if c = '\t' then ['\\', 't']
  else if c.toNat = 12 then ['\\', 'f']
  else if c.toNat = 8 then ['\\', 'b']
  else if 32 ≤ c.toNat ∧ c.toNat ≤ 126 then [c]
  else (charUnits c).flatMap uEscape

/-- `encode_basestring_ascii` (used in sofar/update_conventions.py:221) -/
def dumpStr (s : Str) : Str := '"' :: (s.flatMap dumpChar ++ ['"'])

/-- `int.__repr__` (used in sofar/update_conventions.py:221) -/
def dumpInt : Int → Str
  | .ofNat n => Str.ofNat n
  | .negSucc n => '-' :: Str.ofNat (n + 1)

/-- `floatstr` of `json.encoder` (used in sofar/update_conventions.py:221); `repr` is `float.__repr__` of finite numbers -/
def dumpFloat (repr : Rat → Str) : Num → Str
  | .fin q => repr q
  | .nan => py% "NaN"
  | .pinf => py% "Infinity"
  | .ninf => py% "-Infinity"

/-- line break and indentation (used in sofar/update_conventions.py:221) -/
def newLine (level : Nat) : Str := '\n' :: List.replicate (4 * level) ' '

mutual

/-- `_iterencode` of `json.encoder` with `indent=4` (used in sofar/update_conventions.py:221) -/
def dumpValue (repr : Rat → Str) (level : Nat) : Json → Str
  | .null => py% "null"
  | .bool b => if b then py% "true" else py% "false"
  | .int i => dumpInt i
  | .float x => dumpFloat repr x
  | .str s => dumpStr s
  | .arr [] => py% "[]"
  | .arr (v :: l) =>
    '[' :: (newLine (level + 1) ++ dumpValue repr (level + 1) v ++ dumpItems repr (level + 1) l ++ newLine level ++ [']'])
  | .obj [] => py% "{}"
  | .obj ((k, v) :: d) =>
    '{' :: (newLine (level + 1) ++ dumpStr k ++ [':', ' '] ++ dumpValue repr (level + 1) v ++ dumpFields repr (level + 1) d
      ++ newLine level ++ ['}'])

/-- further items of a list, `_iterencode_list` of `json.encoder` (used in sofar/update_conventions.py:221) -/
def dumpItems (repr : Rat → Str) (level : Nat) : List Json → Str
  | [] => []
  | v :: l => ',' :: (newLine level ++ dumpValue repr level v ++ dumpItems repr level l)

/-- further items of a dictionary, `_iterencode_dict` of `json.encoder` (used in sofar/update_conventions.py:221) -/
def dumpFields (repr : Rat → Str) (level : Nat) : List (Str × Json) → Str
  | [] => []
  | (k, v) :: d => ',' :: (newLine level ++ dumpStr k ++ [':', ' '] ++ dumpValue repr level v ++ dumpFields repr level d)

end

/-- sofar/update_conventions.py:221 `json.dump(value, file, indent=4)`: the text that is written -/
def dumps (repr : Rat → Str) (v : Json) : Str := dumpValue repr 0 v

/-! ## Reading -/

/-- `WHITESPACE` of `json.decoder` (used in sofar/sofa.py:1713) -/
def skipSpace : Str → Str
  | [] => []
  | c :: t => if c = ' ' ∨ c = '\t' ∨ c = '\n' ∨ c = '\r' then skipSpace t else c :: t

/-- value of a hexadecimal digit (`_decode_uXXXX` of `json.decoder`, used in sofar/sofa.py:1713) -/
def hexValue (c : Char) : Option Nat :=
  if 48 ≤ c.toNat ∧ c.toNat ≤ 57 then some (c.toNat - 48)
  else if 97 ≤ c.toNat ∧ c.toNat ≤ 102 then some (c.toNat - 87)
  else if 65 ≤ c.toNat ∧ c.toNat ≤ 70 then some (c.toNat - 55)
  else none

/-- `_decode_uXXXX` of `json.decoder` (used in sofar/sofa.py:1713) -/
def hexFour (a b c d : Char) : Option Nat :=
  match hexValue a, hexValue b, hexValue c, hexValue d with
  | some a, some b, some c, some d => some (a * 4096 + b * 256 + c * 16 + d)
  | _, _, _, _ => none

/-- `BACKSLASH` of `json.decoder` (used in sofar/sofa.py:1713) -/
def backslash (c : Char) : Option Nat :=
  if c = '"' then some 34
  else if c = '\\' then some 92
  else if c = '/' then some 47
  else if c = 'b' then some 8
  else if c = 'f' then some 12
  else if c = 'n' then some 10
  else if c = 'r' then some 13
  else if c = 't' then some 9
  else none

/-- `py_scanstring` of `json.decoder` (used in sofar/sofa.py:1713), from the character after the quotation mark: the characters as
numbers, and the text after the string -/
def scanUnits : Str → Option (List Nat × Str)
  | [] => none
  | c :: t =>
    if c = '"' then some ([], t)
    else if c = '\\' then
      match t with
      | 'u' :: a :: b :: d :: e :: u =>
        match hexFour a b d e, scanUnits u with
        | some n, some (l, r) => some (n :: l, r)
        | _, _ => none
      | e :: u =>
        match backslash e, scanUnits u with
        | some n, some (l, r) => some (n :: l, r)
        | _, _ => none
      | [] => none
    else if c.toNat < 32 then none
    else
      match scanUnits t with
      | some (l, r) => some (c.toNat :: l, r)
      | none => none

/-- `py_scanstring` of `json.decoder` (used in sofar/sofa.py:1713): pairs of surrogates are one character. Single surrogates are
not modelled (`none`). -/
def joinUnits : List Nat → Option Str
  | [] => some []
  | [n] => if 0xd800 ≤ n ∧ n ≤ 0xdfff then none else some [Char.ofNat n]
  | n :: m :: l =>
    if 0xd800 ≤ n ∧ n ≤ 0xdbff then
      if 0xdc00 ≤ m ∧ m ≤ 0xdfff then
        (joinUnits l).map (Char.ofNat (0x10000 + (n - 0xd800) * 1024 + (m - 0xdc00)) :: ·)
      else none
    else if 0xd800 ≤ n ∧ n ≤ 0xdfff then none
    else (joinUnits (m :: l)).map (Char.ofNat n :: ·)

/-- `scanstring` of `json.decoder` (used in sofar/sofa.py:1713) -/
def scanString (s : Str) : Option (Str × Str) :=
  match scanUnits s with
  | none => none
  | some (l, r) =>
    match joinUnits l with
    | none => none
    | some x => some (x, r)

/-- decimal digits (`NUMBER_RE` of `json.scanner`, used in sofar/sofa.py:1713) -/
def isDecimal (c : Char) : Bool := (Str.digit? c).isSome

/-- `(\.[0-9]+)?` (`NUMBER_RE` of `json.scanner`, used in sofar/sofa.py:1713) -/
def scanFrac (s : Str) : Str × Str :=
  match s with
  | '.' :: t => if (t.takeWhile isDecimal).isEmpty then ([], s) else ('.' :: t.takeWhile isDecimal, t.dropWhile isDecimal)
  | _ => ([], s)

/-- `[-+]?` (`NUMBER_RE` of `json.scanner`, used in sofar/sofa.py:1713) -/
def scanSign (s : Str) : Str × Str :=
  match s with
  | c :: t => if c = '-' ∨ c = '+' then ([c], t) else ([], s)
  | [] => ([], [])

/-- `([eE][-+]?[0-9]+)?` (`NUMBER_RE` of `json.scanner`, used in sofar/sofa.py:1713) -/
def scanExp (s : Str) : Str × Str :=
  match s with
  | c :: t =>
    if c = 'e' ∨ c = 'E' then
      let p := scanSign t
      if (p.2.takeWhile isDecimal).isEmpty then ([], s)
      else (c :: (p.1 ++ p.2.takeWhile isDecimal), p.2.dropWhile isDecimal)
    else ([], s)
  | [] => ([], [])

/-- `0|[1-9][0-9]*` (`NUMBER_RE` of `json.scanner`, used in sofar/sofa.py:1713) -/
def scanDigits (s : Str) : Option (Str × Str) :=
  match s with
  | [] => none
  | c :: t =>
    if c = '0' then some (['0'], t)
    else if isDecimal c then some (c :: t.takeWhile isDecimal, t.dropWhile isDecimal)
    else none

/-- `_scan_once` of `json.scanner` for numbers (used in sofar/sofa.py:1713); `float` is `float(text)` -/
def scanNumber (float : Str → Option Num) (s : Str) : Option (Json × Str) :=
  let neg := Str.startsWith s (py% "-")
  let sign : Str := if neg then ['-'] else []
  match scanDigits (if neg then s.drop 1 else s) with
  | none => none
  | some (d, t) =>
    let f := scanFrac t
    let e := scanExp f.2
    if f.1 = [] ∧ e.1 = [] then
      match Str.digits? d with
      | some n => some (.int (if neg then -(n : Int) else n), t)
      | none => none
    else
      match float (sign ++ d ++ f.1 ++ e.1) with
      | some x => some (.float x, e.2)
      | none => none

/-- `_scan_once` of `json.scanner` for constants and numbers (used in sofar/sofa.py:1713) -/
def scanPlain (float : Str → Option Num) (s : Str) : Option (Json × Str) :=
  if Str.startsWith s (py% "null") then some (.null, s.drop 4)
  else if Str.startsWith s (py% "true") then some (.bool true, s.drop 4)
  else if Str.startsWith s (py% "false") then some (.bool false, s.drop 5)
  else
    match scanNumber float s with
    | some r => some r
    | none =>
      if Str.startsWith s (py% "NaN") then some (.float .nan, s.drop 3)
      else if Str.startsWith s (py% "Infinity") then some (.float .pinf, s.drop 8)
      else if Str.startsWith s (py% "-Infinity") then some (.float .ninf, s.drop 9)
      else none

mutual

/-- `_scan_once` of `json.scanner` (used in sofar/sofa.py:1713). The first argument bounds the number of nested calls. -/
def scanValue (float : Str → Option Num) : Nat → Str → Option (Json × Str)
  | 0, _ => none
  | _ + 1, [] => none
  | n + 1, c :: t =>
    if c = '"' then (scanString t).map (fun p => (.str p.1, p.2))
    else if c = '{' then
      match skipSpace t with
      | '}' :: r => some (.obj [], r)
      | '"' :: r => (scanFields float n r).map (fun p => (.obj (Dict.ofList p.1), p.2))
      | _ => none
    else if c = '[' then
      match skipSpace t with
      | ']' :: r => some (.arr [], r)
      | u => (scanItems float n u).map (fun p => (.arr p.1, p.2))
    else scanPlain float (c :: t)

/-- `JSONArray` of `json.decoder` (used in sofar/sofa.py:1713) from the first item -/
def scanItems (float : Str → Option Num) : Nat → Str → Option (List Json × Str)
  | 0, _ => none
  | n + 1, s =>
    match scanValue float n s with
    | none => none
    | some (v, t) =>
      match skipSpace t with
      | ']' :: r => some ([v], r)
      | ',' :: u => (scanItems float n (skipSpace u)).map (fun p => (v :: p.1, p.2))
      | _ => none

/-- `JSONObject` of `json.decoder` (used in sofar/sofa.py:1713) from the character after the first quotation mark -/
def scanFields (float : Str → Option Num) : Nat → Str → Option (List (Str × Json) × Str)
  | 0, _ => none
  | n + 1, s =>
    match scanString s with
    | none => none
    | some (k, t) =>
      match skipSpace t with
      | ':' :: u =>
        match scanValue float n (skipSpace u) with
        | none => none
        | some (v, w) =>
          match skipSpace w with
          | '}' :: r => some ([(k, v)], r)
          | ',' :: x =>
            match skipSpace x with
            | '"' :: y => (scanFields float n y).map (fun p => ((k, v) :: p.1, p.2))
            | _ => none
          | _ => none
      | _ => none

end

/-- sofar/sofa.py:1713 `json.load(file)` for the text of the file; `none` for any exception -/
def loads (float : Str → Option Num) (s : Str) : Option Json :=
  match scanValue float (s.length + 1) (skipSpace s) with
  | none => none
  | some (v, r) => if skipSpace r = [] then some v else none

/-! ## Conventions -/

/-- A number as Python value (sofar/update_conventions.py:275, 290, 302) -/
def Number.json : Number → Json
  | .int i => .int i
  | .float x => .float x

/-- A cell of a convention as Python value (sofar/update_conventions.py:266-330) -/
def Cell.json : Cell → Json
  | .empty => .null
  | .text s => .str s
  | .num n => n.json
  | .list l => .arr (l.map Number.json)
  | .nested l => .arr (l.map (fun r => .arr (r.map Number.json)))
  | .deep l => .arr (l.map (fun m => .arr (m.map (fun r => .arr (r.map Number.json)))))
  | .texts l => .arr (l.map Json.str)

/-- A convention as Python value (sofar/update_conventions.py:224-355) -/
def tableJson (t : Dict (Dict Cell)) : Json := .obj (t.map (fun p => (p.1, .obj (p.2.map (fun q => (q.1, q.2.json))))))

mutual

/-- A loaded value as value that is assigned to an attribute (sofar/sofa.py:1713, 1743-1748). `None` and dictionaries are objects without
content. -/
def Json.py : Json → PyVal
  | .null => .other 0
  | .bool b => .bool b
  | .int i => .int i
  | .float x => .float x
  | .str s => .str s
  | .arr l => .list (pyList l)
  | .obj _ => .other 1

/-- the items of a loaded list (sofar/sofa.py:1713, 1743-1748) -/
def pyList : List Json → List PyVal
  | [] => []
  | v :: l => v.py :: pyList l

end

end Sofar
