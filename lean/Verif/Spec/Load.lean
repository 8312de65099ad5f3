import Verif.Spec.Config
import Verif.Model.Load
/-!
What loading the configuration files is to do: which files are read in which order, and which of them decides a setting.
-/
namespace Verif.LoadSpec
open Verif.Val Verif.Json Verif.Config Verif.ConfigSpec Verif.Load

/-- A file names another one under `extends`. -/
def Extends (fs : Files) (f g : Str) : Prop := ∃ file, fs f = some file ∧ g ∈ file.ext.files

mutual
/-- The files read for a file: first those read for what it extends, in order, then the file itself. -/
inductive Reads (fs : Files) : Str → List Str → Prop
  | file {f file l} : fs f = some file → ReadsAll fs file.ext.files l → Reads fs f (l ++ [f])
/-- The files read for several files. -/
inductive ReadsAll (fs : Files) : List Str → List Str → Prop
  | nil : ReadsAll fs [] []
  | cons {f r l m} : Reads fs f l → ReadsAll fs r m → ReadsAll fs (f :: r) (l ++ m)
end

/-- A setting: the value of a key, an entry of a dictionary section, a property of a database or cache. -/
inductive Ask where
  | value (k : Str)
  | entry (sect x : Str)
  | prop (sect db p : Str)

/-- The setting makes sense. -/
def Ask.Proper : Ask → Prop
  | .value k => PlainKey k
  | .entry k _ => k ∈ dictKeys
  | .prop k _ _ => k ∈ namedKeys

/-- What a configuration says about it. -/
def answer (c : Cfg) : Ask → Option Sect
  | .value k => valueOf k c
  | .entry k x => (entryOf c k x).map .plain
  | .prop k db p => (propOf c k db p).map .plain

/-- What a file itself says about it. -/
def fileSays (fs : Files) (a : Ask) (f : Str) : Option Sect := (fs f).bind fun file => answer file.cfg a

/-- What the last of the files that says something about it says. -/
def lastSays (fs : Files) (a : Ask) (l : List Str) : Option Sect := l.reverse.findSome? (fileSays fs a)

/-- The setting is not one of a database: those are completed after loading. -/
def Ask.NotDatabase : Ask → Prop
  | .prop k _ _ => k ≠ "databases".toList
  | _ => True

/-- The files are well formed. -/
def WfFiles (fs : Files) : Prop := ∀ f file, fs f = some file → Wf file.cfg

/-- Values that count as no setting: NULL, false, 0, empty texts, lists and dictionaries. -/
inductive Blank : Sect → Prop
  | null : Blank (.plain .null)
  | false_ : Blank (.plain (.bool false))
  | zero : Blank (.plain (.int 0))
  | zeroFloat : Blank (.plain (.flt 0))
  | text : Blank (.plain (.str []))
  | array : Blank (.plain (.arr []))
  | object : Blank (.plain (.obj []))
  | dict : Blank (.dict [])
  | named : Blank (.named [])
  | list : Blank (.list [])

/-- The value a database gets for a global setting. -/
inductive AsValue : Sect → J → Prop
  | plain (v : J) : AsValue (.plain v) v
  | dict (d : List (Str × J)) : AsValue (.dict d) (.obj d)
  | list (l : List J) : AsValue (.list l) (.arr l)

open Classical in
/-- The settings made before loading that count: those that are not blank, and the blank ones of keys without a default. -/
noncomputable def setBefore (D own : Cfg) : Cfg := own.filter fun kv => decide (Blank kv.2 → valueOf kv.1 D = none)

/-- Who decides a setting: the settings given to the engine, else those made before loading, else the last of the files read that
says something, else the default. -/
noncomputable def said (fs : Files) (D own : Cfg) (custom : Option Cfg) (l : List Str) (a : Ask) : Option Sect :=
  orElse (custom.bind (answer · a)) (orElse (answer (setBefore D own) a) (orElse (lastSays fs a l) (answer D a)))

/-- The initialisation scripts a configuration names. -/
def executesIn (c : Cfg) : List J :=
  match valueOf "executes".toList c with
  | none => []
  | some s => listOf s

/-- All of them, in the order of loading. -/
noncomputable def allExecutes (fs : Files) (D own : Cfg) (custom : Option Cfg) (l : List Str) : List J :=
  l.flatMap (fun f => ((fs f).map fun file => executesIn file.cfg).getD []) ++ executesIn (setBefore D own)
    ++ (custom.map executesIn).getD []

/-- A script is where its name says, or else under the home directory. -/
def FoundAt (exists_ : Str → Bool) (home f g : Str) : Prop :=
  (exists_ f = true ∧ g = f) ∨ (exists_ f = false ∧ exists_ (home ++ '/' :: f) = true ∧ g = home ++ '/' :: f)

end Verif.LoadSpec
