import Verif.Spec.SameOutput
import Verif.Spec.RunWorks

/-
Specification for C97: runs that differ in the destination.
-/
namespace Subsetter.Spec
open Subsetter

variable {σ : Type}

/-- Two runs read the same source and transform rows in the same way.  Renaming, conflict strategy, merging, truncation,
creation of tables, and everything about the destination may differ. -/
structure SameSource (C C' : RunConfig) (D D' : Setting σ) : Prop where
  infer : C'.infer = C.infer
  filters : C'.filters = C.filters
  compact : C'.compact = C.compact
  mult : C'.mult = C.mult
  fnmatch : D'.fnmatch = D.fnmatch
  srcDb : D'.srcDb = D.srcDb
  src : D'.src = D.src
  engine : D'.engine = D.engine
  reopen : D'.reopen = D.reopen
  le : D'.le = D.le
  world : D'.world = D.world

/-- Rows of the tables `d` and `d'` say the same.  `sent` are the columns sent to both: unless a table generates them, their values
have the same origin, from which they are moved by the amounts for the tables.  All others have their defaults. -/
structure SameRow (d d' : DestTable) (shift shift' : Str → Option Int) (sent : List Str) (row row' : Row) : Prop where
  columns : dkeys row = (d.columns.filter fun c => decide (c ∉ d.computed))
  columns' : dkeys row' = (d'.columns.filter fun c => decide (c ∉ d'.computed))
  values : ∀ c ∈ sent, c ∉ d.computed → c ∉ d'.computed →
    ∃ v, row.get c = shiftVal (shift c) v ∧ row'.get c = shiftVal (shift' c) v
  others : ∀ c ∈ d.columns, c ∉ d.computed → c ∉ sent → row.get c = d.default c
  others' : ∀ c ∈ d'.columns, c ∉ d'.computed → c ∉ sent → row'.get c = d'.default c

end Subsetter.Spec
