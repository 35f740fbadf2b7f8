import Verif.Model.Py
import Verif.Model.Str

/-
Model of `fnmatch.fnmatch` of Python's standard library, which `/repo/subsetter/metadata.py:90` uses to select tables and
`/repo/subsetter/filters.py:586` to compare values; on systems where `os.path.normcase` changes nothing.  The line
numbers given are those of `fnmatch.py` of Python 3.11.
-/
namespace Subsetter

/-- Elements of the list `res` of `translate` (`fnmatch.py:80-152`): pieces of a regular expression. -/
inductive Tok where
  | lit (c : Char)
  /-- `.` with the flag `s` -/
  | any
  /-- `STAR`; consecutive ones are kept here, `translate` drops all but the first, which matches the same -/
  | star
  /-- `(?!)` -/
  | never
  /-- a set of characters given by ranges -/
  | set (negated : Bool) (ranges : List (Char × Char))
  deriving DecidableEq, Repr

/-- Characters up to the next `]` and those after it (`fnmatch.py:103-105`). -/
def splitClose : Str → Option (Str × Str)
  | [] => none
  | c :: s => if c = ']' then some ([], s) else (splitClose s).map fun x => (c :: x.1, x.2)

/-- The first character, if it is `c`, and the rest.  `metadata.py:90`, `filters.py:586`. -/
def takeIf (c : Char) : Str → Str × Str
  | [] => ([], [])
  | d :: s => if d = c then ([c], s) else ([], d :: s)

/-- From the character after `[`: `stuff` and what follows `]`, if there is one (`fnmatch.py:98-109`). -/
def bracket (s : Str) : Option (Str × Str) :=
  let x := takeIf '!' s
  let y := takeIf ']' x.2
  (splitClose y.2).map fun z => (x.1 ++ y.1 ++ z.1, z.2)

/-- `pat.find('-', k, j)`: what is before and after the hyphen; the first `k` characters are not searched.
`metadata.py:90`, `filters.py:586`. -/
def findHyphen : Nat → Str → Option (Str × Str)
  | _, [] => none
  | 0, c :: s => if c = '-' then some ([], s) else (findHyphen 0 s).map fun x => (c :: x.1, x.2)
  | k + 1, c :: s => (findHyphen k s).map fun x => (c :: x.1, x.2)

/-- `chunks` (`fnmatch.py:113-124`); the last one may be empty.  Fuel: each step removes a hyphen. -/
def chunksFrom : Nat → Nat → Str → List Str
  | 0, _, s => [s]
  | fuel + 1, k, s =>
    match findHyphen k s with
    | none => [s]
    | some (a, b) => a :: chunksFrom fuel 2 b

/-- An empty last chunk becomes a hyphen at the end of the one before (`fnmatch.py:121-124`). -/
def closeChunks (l : List Str) : List Str :=
  match l.reverse with
  | [] :: c :: l => ((c ++ ['-']) :: l).reverse
  | _ => l

/-- Ranges without characters are removed from the right (`fnmatch.py:125-129`). -/
def dropEmptyRanges : List Str → List Str
  | [] => []
  | c :: l =>
    match dropEmptyRanges l with
    | [] => [c]
    | d :: ds =>
      match c.getLast?, d.head? with
      | some x, some y => if y < x then (c.dropLast ++ d.tail) :: ds else c :: d :: ds
      | _, _ => c :: d :: ds

/-- What `[...]` with the chunks joined by `-` matches: hyphens between chunks make ranges, other characters stand for
themselves (`fnmatch.py:130-150`). -/
def chunkRanges : List Str → List (Char × Char)
  | [] => []
  | [c] => c.map fun x => (x, x)
  | c :: d :: l =>
    match c.getLast?, d.head? with
    | some x, some y => (c.dropLast.map fun x => (x, x)) ++ (x, y) :: chunkRanges (d.tail :: l)
    | _, _ => (c.map fun x => (x, x)) ++ chunkRanges (d :: l)
  termination_by l => l.length

/-- The set for the chunks (`fnmatch.py:130-150`).  A `!` at the beginning negates it. -/
def chunksTok : List Str → Tok
  | ('!' :: c) :: l => if c.isEmpty && l.isEmpty then .any else .set true (chunkRanges (c :: l))
  | l => if l.all List.isEmpty then .never else .set false (chunkRanges l)

/-- The set for `stuff` (`fnmatch.py:110-150`). -/
def stuffTok (stuff : Str) : Tok :=
  chunksTok (dropEmptyRanges (closeChunks
    (chunksFrom stuff.length (if stuff.head? = some '!' then 2 else 1) stuff)))

/-- First part of `translate` (`fnmatch.py:80-153`).  Fuel: each step removes a character. -/
def toks : Nat → Str → List Tok
  | 0, _ => []
  | _, [] => []
  | fuel + 1, c :: s =>
    if c = '*' then .star :: toks fuel s
    else if c = '?' then .any :: toks fuel s
    else if c = '[' then
      match bracket s with
      | none => .lit '[' :: toks fuel s
      | some (stuff, s') => stuffTok stuff :: toks fuel s'
    else .lit c :: toks fuel s

/-- Whether a piece other than `STAR` matches a character.
`metadata.py:90`, `filters.py:586`. -/
def Tok.matchChar : Tok → Char → Bool
  | .lit d, c => c == d
  | .any, _ => true
  | .star, _ => false
  | .never, _ => false
  | .set neg rs, c => (rs.any fun r => decide (r.1 ≤ c) && decide (c ≤ r.2)) != neg

/-- Matching of the regular expression made of the pieces (`fnmatch.py:155-188`): `STAR` matches any characters.  That
Python's translation with atomic groups does the same is taken for granted. -/
def matchToks : List Tok → Str → Bool
  | [], s => s.isEmpty
  | .star :: ts, s => s.tails.any (matchToks ts)
  | t :: ts, s =>
    match s with
    | [] => false
    | c :: s => t.matchChar c && matchToks ts s

/-- `fnmatch(name, pat)`.  `metadata.py:90`, `filters.py:586`. -/
def fnmatch (name pat : Str) : Bool := matchToks (toks pat.length pat) name

end Subsetter
