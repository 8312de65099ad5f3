import Verif.Spec.Tasks
/-! What the theorems on `@streaming` (C176) suppose of the programs of the tasks. -/
namespace Verif.StreamSpec
open Verif.Tasks

variable {ν R : Type}

/-- The program never yields before it ends or raises, whatever it reads (a table read in one batch). -/
inductive NoPause : Prog ν R → Prop where
  | done : NoPause .done
  | raise : NoPause .raise
  | read {n : ν} {k : List R → Prog ν R} (h : ∀ rows, NoPause (k rows)) : NoPause (.read n k)
  | write {n : ν} {rows : List R} {k : Prog ν R} (h : NoPause k) : NoPause (.write n rows k)
  | delete {n : ν} {k : Prog ν R} (h : NoPause k) : NoPause (.delete n k)
  | reduce {n : ν} {k : Prog ν R} (h : NoPause k) : NoPause (.reduce n k)

/-- The program reads no temporary collection. -/
inductive NoTmpRead (temp : ν → Bool) : Prog ν R → Prop where
  | done : NoTmpRead temp .done
  | raise : NoTmpRead temp .raise
  | pause {k : Prog ν R} (h : NoTmpRead temp k) : NoTmpRead temp (.pause k)
  | read {n : ν} {k : List R → Prog ν R} (hn : temp n = false) (h : ∀ rows, NoTmpRead temp (k rows)) : NoTmpRead temp (.read n k)
  | write {n : ν} {rows : List R} {k : Prog ν R} (h : NoTmpRead temp k) : NoTmpRead temp (.write n rows k)
  | delete {n : ν} {k : Prog ν R} (h : NoTmpRead temp k) : NoTmpRead temp (.delete n k)
  | reduce {n : ν} {k : Prog ν R} (h : NoTmpRead temp k) : NoTmpRead temp (.reduce n k)

/-- The program reads no temporary collection after its first yield. -/
inductive Late (temp : ν → Bool) : Prog ν R → Prop where
  | done : Late temp .done
  | raise : Late temp .raise
  | pause {k : Prog ν R} (h : NoTmpRead temp k) : Late temp (.pause k)
  | read {n : ν} {k : List R → Prog ν R} (h : ∀ rows, Late temp (k rows)) : Late temp (.read n k)
  | write {n : ν} {rows : List R} {k : Prog ν R} (h : Late temp k) : Late temp (.write n rows k)
  | delete {n : ν} {k : Prog ν R} (h : Late temp k) : Late temp (.delete n k)
  | reduce {n : ν} {k : Prog ν R} (h : Late temp k) : Late temp (.reduce n k)

end Verif.StreamSpec
