import Verif.Model.Config
/-!
Model of loading the configuration (config.py:130-213 `load`, `load_config`).

The file system is a parameter: what the syncany library's `load_config` reads from a file (`none`: it raises), and which files exist.
`for filename in {…}` (136-137) iterates over a set of texts, whose order depends on Python's hash seed: the order is a parameter too.
Not modelled: `sys.path`, the time zone, logging; `extends: null`; a database entry without a name.
-/
namespace Verif.Load
open Verif.Val Verif.Json Verif.Config

/-- What a configuration file says it extends: a list of files or a single one. -/
inductive Ext where
  | many (l : List Str)
  | one (f : Str)

/-- A configuration file, without its `extends` (config.py:207). -/
structure File where
  ext : Ext
  cfg : Cfg

/-- What the files hold. -/
abbrev Files := Str → Option File

/-- config.py:208-212: the files to load first. -/
def Ext.files : Ext → List Str
  | .many l => l
  | .one f => [f]

/-- config.py:198-213 `load_config(filename)`: first what the file extends, in order, then the file itself.  The first argument is
how deep Python can recurse; `none`: an exception. -/
def loadFile (fs : Files) : Nat → Cfg → Str → Option Cfg
  | 0, _, _ => none
  | n + 1, c, f =>
    match fs f with
    | none => none
    | some file => (file.ext.files.foldlM (loadFile fs n) c).map fun c => merge c file.cfg

/-- Python's `not v` for a section. -/
def emptySect : Sect → Bool
  | .plain .null => true
  | .plain (.bool b) => !b
  | .plain (.int i) => i = 0
  | .plain (.flt q) => q = 0
  | .plain (.str s) => s = []
  | .plain (.arr l) => l.isEmpty
  | .plain (.obj l) => l.isEmpty
  | .dict d => d.isEmpty
  | .named l => l.isEmpty
  | .list l => l.isEmpty

/-- config.py:200-203: the keys of the default configuration whose value is empty are forgotten. -/
def dropEmpty (D own : Cfg) : Cfg := own.filter fun kv => !((look kv.1 D).isSome && emptySect kv.2)

/-- config.py:198-213 `load_config()`: the settings made before loading (`own`) come last. -/
def loadAll (fs : Files) (n : Nat) (D own : Cfg) (exts : List Str) : Option Cfg :=
  (exts.foldlM (loadFile fs n) D).map fun c => merge c (dropEmpty D own)

/-- config.py:136-142: the existing ones of the four files, in the order of the set, behind what is extended already. -/
def extended (isFile : Str → Bool) (order pre : List Str) : List Str :=
  order.foldl (fun e f => if isFile f && !(e.contains f) then e ++ [f] else e) pre

/-- The four places of config.py:136-137. -/
def places (home cwd : Str) : List Str :=
  [home ++ "/config.json".toList, home ++ "/config.yaml".toList, cwd ++ "/config.json".toList, cwd ++ "/config.yaml".toList]

/-- A possible order of `{…}`: each of the four places once. -/
def SetOrder (home cwd : Str) (order : List Str) : Prop := order.Nodup ∧ ∀ f, f ∈ order ↔ f ∈ places home cwd

/-- The text of a value that is one. -/
def textOf : J → Option Str
  | .str s => some s
  | _ => none

/-- `driver`. -/
def driverKey : Str := "driver".toList
/-- `-`. -/
def dash : Str := "-".toList
/-- `--`. -/
def dashes : Str := "--".toList

/-- config.py:166-168. -/
def redisDefaults (uuid : Str) : List (Str × J) :=
  [("prefix".toList, .str ("syncany:".toList ++ uuid ++ ":".toList)), ("serialize".toList, .str "pickle".toList),
   ("ignore_serialize_error".toList, .bool true), ("expire_seconds".toList, .int 900)]

/-- config.py:168-170: a default is only taken where nothing is configured. -/
def fill (defaults : List (Str × J)) (d : Db) : Db :=
  { d with props := defaults.foldl (fun ps kv => if (look kv.1 ps).isSome then ps else ps ++ [kv]) d.props }

/-- The last entry of a name, changed (`databases` of config.py:159 keeps the last). -/
def onLast (n : Str) (f : Db → Db) : List Db → List Db
  | [] => []
  | e :: l => if l.any (fun x => x.name = n) then e :: onLast n f l else if e.name = n then f e :: l else e :: l

/-- The last entry of a name. -/
def lastDb (n : Str) (l : List Db) : Option Db := l.reverse.find? fun d => d.name = n

/-- config.py:159-170; `none`: `databases["--"]` has no driver. -/
def addDefaults (uuid : Str) (l : List Db) : Option (List Db) :=
  let l' := if (lastDb dash l).isSome then l else l ++ [⟨dash, [(driverKey, .str "textline".toList)]⟩]
  match lastDb dashes l with
  | none => some (l' ++ [⟨dashes, [(driverKey, .str "memory".toList)]⟩])
  | some d =>
    match look driverKey d.props with
    | none => none
    | some v => if textOf v = some "redis".toList then some (onLast dashes (fill (redisDefaults uuid)) l') else some l'

/-- The options of file databases (config.py:225-264). -/
def formatKeys : List Str := ["encoding".toList, "datetime_format".toList, "date_format".toList, "time_format".toList]

/-- The drivers of files (config.py:225-264). -/
def fileDrivers : List Str := ["textline".toList, "json".toList, "csv".toList]

/-- config.py:172-175, 179-186: one of the four global settings, when it is not empty. -/
def globalOf (c : Cfg) (k : Str) : Option J :=
  match look k c with
  | some (.plain v) => if emptySect (.plain v) then none else some v
  | some (.dict d) => if d.isEmpty then none else some (.obj d)
  | some (.list l) => if l.isEmpty then none else some (.arr l)
  | _ => none

/-- config.py:179-186: one of the settings put into a database. -/
def setGlobal (c : Cfg) (ps : List (Str × J)) (k : Str) : List (Str × J) :=
  match globalOf c k with
  | some g => ins k g ps
  | none => ps

/-- config.py:176-186, one database; `none`: it has no driver. -/
def formatDb (c : Cfg) (d : Db) : Option Db :=
  match look driverKey d.props with
  | none => none
  | some v =>
    if (textOf v).any (· ∈ fileDrivers) then
      some { d with props := formatKeys.foldl (setGlobal c) d.props }
    else some d

/-- config.py:157-186. -/
def finish (uuid : Str) (c : Cfg) : Option Cfg := do
  let l ← match look "databases".toList c with
    | none => some []
    | some (.named l) => some l
    | some _ => none
  let l ← addDefaults uuid l
  let l ← l.mapM (formatDb c)
  some (ins "databases".toList (.named l) c)

/-- config.py:188-195: where an initialisation script is found; `none`: `FileNotFoundError`. -/
def findInit (exists_ : Str → Bool) (home f : Str) : Option Str :=
  if exists_ f then some f
  else if exists_ (home ++ '/' :: f) then some (home ++ '/' :: f)
  else none

/-- The names under `executes` (each has to be a text). -/
def executesOf (c : Cfg) : Option (List Str) :=
  match look "executes".toList c with
  | none => some []
  | some s => (listOf s).mapM fun | .str f => some f | _ => none

/-- What surrounds the program when it loads its configuration. -/
structure World where
  files : Files
  exists_ : Str → Bool
  home : Str
  cwd : Str
  depth : Nat
  uuid : Str

/-- config.py:130-196 `load`: the configuration and the initialisation scripts to run; `none`: an exception. -/
def load (w : World) (D own : Cfg) (pre order : List Str) (custom : Option Cfg) : Option (Cfg × List Str) := do
  let c ← loadAll w.files w.depth D own (extended w.exists_ order pre)
  let c := match custom with | some m => merge c m | none => c
  let c ← finish w.uuid c
  let names ← executesOf c
  let inits ← names.mapM (findInit w.exists_ w.home)
  some (del "executes".toList c, inits)

end Verif.Load
