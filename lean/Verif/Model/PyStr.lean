/-!
# Python strings

A Python `str` is modelled as the list of its code points. Only the string operations that sofar uses are
defined, each in the form in which sofar uses it. Case mapping is restricted to ASCII letters (Python maps all
of Unicode); this is a simplification.
-/
namespace Sofar

/-- Python `str`. (used everywhere, e.g. sofar/sofa.py:133) -/
abbrev Str := List Char

/-- `py% "abc"` is the character list of a Python string literal (e.g. `"GLOBAL_"`, sofar/sofa.py:669). -/
macro "py%" s:str : term => do
  let cs := (s.getString.toList.map (fun c => Lean.Syntax.mkCharLit c)).toArray
  `(([$cs,*] : Str))

namespace Str

/-- `s.startswith(p)` (sofar/sofa.py:516, 665, 1690) -/
def startsWith (s p : Str) : Bool := p.isPrefixOf s

/-- `s.endswith(p)` (sofar/sofa.py:1378, 1471) -/
def endsWith (s p : Str) : Bool := p.isSuffixOf s

/-- `p in s` for strings (substring test). (sofar/sofa.py:301, sofar/utils.py:176-177) -/
def hasSub : Str → Str → Bool
  | [], p => p.isEmpty
  | c :: t, p => p.isPrefixOf (c :: t) || hasSub t p

/-- `s.replace(a, b)` for one-character strings `a`, `b`. (sofar/sofa.py:1717-1719, sofar/io.py:163) -/
def replaceChar (s : Str) (a b : Char) : Str := s.map (fun c => if c = a then b else c)

/-- Worker of `replace`; the first argument counts characters of the current match still to be skipped.
(sofar/sofa.py:1123, sofar/io.py:328) -/
def replaceGo (old new : Str) : Nat → Str → Str
  | _, [] => []
  | k + 1, _ :: t => replaceGo old new k t
  | 0, c :: t =>
    if old.isPrefixOf (c :: t) then new ++ replaceGo old new (old.length - 1) t
    else c :: replaceGo old new 0 t

/-- `s.replace(old, new)` for non-empty `old` (leftmost, non overlapping matches).
(sofar/sofa.py:1123, 1159, sofar/io.py:328) -/
def replace (s old new : Str) : Str := replaceGo old new 0 s

/-- Put a character in front of the first piece of a split string. (see `splitChar`; sofar/sofa.py:1698) -/
def consHead (c : Char) : List Str → List Str
  | [] => [[c]]
  | h :: t => (c :: h) :: t

/-- `s.split(c)` for a one-character separator. (sofar/sofa.py:816, 1698, sofar/utils.py:110) -/
def splitChar (c : Char) : Str → List Str
  | [] => [[]]
  | d :: t => if d = c then [] :: splitChar c t else consHead d (splitChar c t)

/-- `s.split(", ")` (sofar/sofa.py:1200, 1242, 1744) -/
def splitCommaSpace : Str → List Str
  | [] => [[]]
  | ',' :: ' ' :: t => [] :: splitCommaSpace t
  | c :: t => consHead c (splitCommaSpace t)

/-- `re.split(', ?', s)` (comma, optionally followed by one space). (sofar/sofa.py:1505-1506) -/
def reSplitComma : Str → List Str
  | [] => [[]]
  | ',' :: ' ' :: t => [] :: reSplitComma t
  | ',' :: t => [] :: reSplitComma t
  | c :: t => consHead c (reSplitComma t)

/-- `re.split(', ?| ', s)` (comma, comma and space, or space). (sofar/sofa.py:1545) -/
def reSplitCommaOrSpace : Str → List Str
  | [] => [[]]
  | ',' :: ' ' :: t => [] :: reSplitCommaOrSpace t
  | ',' :: t => [] :: reSplitCommaOrSpace t
  | ' ' :: t => [] :: reSplitCommaOrSpace t
  | c :: t => consHead c (reSplitCommaOrSpace t)

/-- `sep.join(l)` (sofar/sofa.py:862, 1297, sofar/io.py:205) -/
def join (sep : Str) : List Str → Str
  | [] => []
  | [a] => a
  | a :: b :: l => a ++ sep ++ join sep (b :: l)

/-- `s[:s.rindex(c)]`; `none` if `c` does not occur (Python: ValueError). (sofar/sofa.py:670, 1089) -/
def beforeLast (c : Char) : Str → Option Str
  | [] => none
  | d :: t =>
    match beforeLast c t with
    | some r => some (d :: r)
    | none => if d = c then some [] else none

/-- `s[:-n]` (sofar/sofa.py:1698) -/
def dropEnd (s : Str) (n : Nat) : Str := s.take (s.length - n)

/-- ASCII lower case of one character. (sofar/sofa.py:710) -/
def lowerC (c : Char) : Char :=
  if 'A'.toNat ≤ c.toNat ∧ c.toNat ≤ 'Z'.toNat then Char.ofNat (c.toNat + 32) else c

/-- ASCII upper case of one character. (sofar/sofa.py:710, 1203) -/
def upperC (c : Char) : Char :=
  if 'a'.toNat ≤ c.toNat ∧ c.toNat ≤ 'z'.toNat then Char.ofNat (c.toNat - 32) else c

/-- `c.islower()` for a one-character ASCII string. (sofar/sofa.py:1201) -/
def isLowerC (c : Char) : Bool := 'a'.toNat ≤ c.toNat && c.toNat ≤ 'z'.toNat

/-- `s.lower()` (ASCII); (sofar/sofa.py:1301-1303, 1466) -/
def lower (s : Str) : Str := s.map lowerC

/-- `s.upper()` (ASCII); (sofar/sofa.py:677, 1259, sofar/utils.py:167-175) -/
def upper (s : Str) : Str := s.map upperC

/-- `str(n)` for a non negative int. (sofar/sofa.py:1267) -/
def ofNat (n : Nat) : Str := Nat.toDigits 10 n

/-- `str(t)` of a tuple of non negative ints, e.g. `(1, 2)` or `(1,)`. (sofar/sofa.py:1270) -/
def ofTuple (l : List Nat) : Str :=
  match l with
  | [n] => py% "(" ++ ofNat n ++ py% ",)"
  | l => py% "(" ++ join (py% ", ") (l.map ofNat) ++ py% ")"

/-- All characters are ASCII. (encoding of strings, sofar/io.py:379, sofar/utils.py:224) -/
def isAscii (s : Str) : Bool := s.all (fun c => c.toNat < 128)

/-- Value of a decimal digit. (used by `float` and `parse`, sofar/utils.py:46, sofar/sofa.py:110) -/
def digit? (c : Char) : Option Nat :=
  if '0'.toNat ≤ c.toNat ∧ c.toNat ≤ '9'.toNat then some (c.toNat - '0'.toNat) else none

/-- Value of a list of decimal digits, most significant first.
(used by `float` and `parse`, sofar/utils.py:46, sofar/sofa.py:110) -/
def digitsGo : Nat → Str → Option Nat
  | acc, [] => some acc
  | acc, c :: t =>
    match digit? c with
    | some d => digitsGo (acc * 10 + d) t
    | none => none

/-- Value of a non empty string of decimal digits.
(used by `float` and `parse`, sofar/utils.py:46, sofar/sofa.py:110) -/
def digits? (s : Str) : Option Nat := if s.isEmpty then none else digitsGo 0 s

end Str
end Sofar
