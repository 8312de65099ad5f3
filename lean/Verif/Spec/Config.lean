import Verif.Model.Config
/-! What a configuration says, independently of merging: the value of a key, of an entry of a section, of a property of a
database. -/
namespace Verif.ConfigSpec
open Verif.Val Verif.Json Verif.Config

/-- First match in a dictionary. -/
def valueOf {α : Type} (k : Str) (d : List (Str × α)) : Option α := (d.find? fun x => x.1 = k).map (·.2)

/-- An entry of a dictionary section. -/
def entryOf (c : Cfg) (sect x : Str) : Option J :=
  match valueOf sect c with
  | some (.dict d) => valueOf x d
  | _ => none

/-- A property of a database. -/
def propOf (c : Cfg) (sect db p : Str) : Option J :=
  match valueOf sect c with
  | some (.named l) => ((l.find? fun d => d.name = db).map fun d => valueOf p d.props).getD none
  | _ => none

/-- Whether there is a database of the name. -/
def hasDb (c : Cfg) (sect db : Str) : Prop :=
  match valueOf sect c with
  | some (.named l) => ∃ d ∈ l, d.name = db
  | _ => False

/-- The first of the two that is there. -/
def orElse {α : Type} : Option α → Option α → Option α
  | some a, _ => some a
  | none, b => b

/-- A dictionary has each key once; sections hold what their name says; names and properties are not repeated. -/
structure Wf (c : Cfg) : Prop where
  nodup : (c.map (·.1)).Nodup
  dicts : ∀ k ∈ dictKeys, ∀ v, valueOf k c = some v → ∃ d, v = .dict d ∧ (d.map (·.1)).Nodup
  named : ∀ k ∈ namedKeys, ∀ v, valueOf k c = some v →
    ∃ l, v = .named l ∧ (l.map (·.name)).Nodup ∧ ∀ d ∈ l, (d.props.map (·.1)).Nodup

/-- Keys whose value is replaced as a whole. -/
def PlainKey (k : Str) : Prop := k ∉ dictKeys ∧ k ∉ namedKeys ∧ k ≠ pipelinesKey ∧ k ∉ listKeys

end Verif.ConfigSpec
