import Verif.Model.Str
import Verif.Model.Py

/-
Model of the naming of temporary tables (`TempTableCreator`, `/repo/subsetter/sampler.py:43-155`).
-/
namespace Subsetter

/-- `str(n)` for a natural number.  `sampler.py:56-64`. -/
def natStr (n : Nat) : Str := Nat.toDigits 10 n

/-- `NAME_PREFIX` (`sampler.py:51`). -/
def namePrefix : Str := str! "_sbsttr_"

/-- `"".join(ch for ch in name if ch.isalnum())[:40]`, `"anon"` if empty (`sampler.py:57-59`).
`isalnum` is a parameter (Unicode tables are not modelled). -/
def friendlyName (alnum : Char → Bool) (name : Str) : Str :=
  let n := (name.filter alnum).take 40
  if n.isEmpty then str! "anon" else n

/-- `_generate_name` (`sampler.py:56-64`) with the updated `name_counts`. -/
def generateName (alnum : Char → Bool) (counts : Dict Str Nat) (name : Str) :
    Str × Dict Str Nat :=
  let n := friendlyName alnum name
  let cnt := (dget counts n).getD 0
  (if cnt = 0 then namePrefix ++ n else namePrefix ++ n ++ '_' :: natStr cnt, dset counts n (cnt + 1))

/-- The names of a sequence of `create` calls on one instance.  `sampler.py:53-64`. -/
def generateNames (alnum : Char → Bool) : Dict Str Nat → List Str → List Str
  | _, [] => []
  | counts, name :: names =>
    let (n, counts') := generateName alnum counts name
    n :: generateNames alnum counts' names

/-- `f"{temp_name}_idx_{idx}"` (`sampler.py:136`). -/
def indexName (tempName : Str) (idx : Nat) : Str := tempName ++ str! "_idx_" ++ natStr idx

end Subsetter
