import Verif.Spec.Log

/-!
# History of the timestamp format which several threads use and change (no code from the model)
-/

namespace Verif.LogFormat
open Verif.C

/-- What happens -/
inductive Event
  /-- the thread calls `gutil_log_set_timestamp_format` -/
  | setting (t : Nat) (f : Option Str)
  /-- that call returns -/
  | set (t : Nat)
  /-- the thread begins to log something to stdout or stderr, with timestamps -/
  | logging (t : Nat)
  /-- ... and ends, having used this format (`none`: there's no timestamp) -/
  | logged (t : Nat) (f : Option Str)
  deriving DecidableEq, Repr

/-- The thread is in `gutil_log_set_timestamp_format`. -/
def Pending (t : Nat) (h : List Event) : Prop := ∃ f a b, h = a ++ .setting t f :: b ∧ .set t ∉ b

/-- Some thread is. -/
def Busy (h : List Event) : Prop := ∃ t, Pending t h

/-- The format which was the last one to be set -/
def formatOf (h : List Event) : Option Str := h.foldl (fun f e => match e with | .setting _ g => g | _ => f) none

/-- The last time the thread began to log something was after `a`; `b` is what has happened since then. -/
def During (t : Nat) (h a b : List Event) : Prop := h = a ++ .logging t :: b ∧ .logging t ∉ b

/-- `gutil_log_set_timestamp_format` was being called when the thread began to log something, or has been called since then. -/
def Overlap (a b : List Event) : Prop := Busy a ∨ ∃ u f, .setting u f ∈ b

/-- The format which is used for timestamps if that one has been set; `none` if there are none -/
def used (f : Option Str) : Option Str :=
  let f := f.getD (Log.Spec.ascii "%Y-%m-%d %H:%M:%S ")
  if f = [] then none else some f

end Verif.LogFormat
