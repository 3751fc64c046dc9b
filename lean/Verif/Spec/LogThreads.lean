import Verif.Model.Log

/-!
# History of a log which is used by several threads (no code from the model of threads)
-/

namespace Verif.LogThreads
open Verif.C
open Verif.Log (Proc Proc2 Out)

/-- Arguments of `gutil_log` -/
structure Job where
  module : Option Nat
  level : Int
  msg : Str
  deriving DecidableEq, Repr

/-- Public variables, fields of log modules and `gutil_log_set_timestamp_format` -/
inductive Setting
  | func (p : Option Proc)
  | func2 (p : Option Proc2)
  | proc (i : Nat) (p : Option Proc2)
  | level (i : Nat) (l : Int)
  | parent (i : Nat) (p : Option Nat)
  | flags (i : Nat) (hideName disable : Bool)
  | name (i : Nat) (n : Option Str)
  | timestamp (b : Bool)
  | tid (b : Bool)
  | format (f : Option Str)
  deriving DecidableEq, Repr

/-- What happens -/
inductive Event
  /-- the thread calls `gutil_log` -/
  | began (t : Nat) (j : Job)
  /-- somebody changes the configuration -/
  | set (x : Setting)
  /-- the thread has called a function of type `GLogProc2` for the module -/
  | called2 (t : Nat) (module : Nat) (p : Proc2)
  /-- the thread has called `gutil_log_func` -/
  | called (t : Nat) (p : Proc)
  /-- something has been printed, or passed to a log function from outside of the library -/
  | out (t : Nat) (o : Out)
  /-- `gutil_log` returns -/
  | ended (t : Nat)
  deriving DecidableEq, Repr

/-- The value of `gutil_log_func` at the end of the history -/
def funcAt (f : Option Proc) (h : List Event) : Option Proc :=
  h.foldl (fun f e => match e with | .set (.func p) => p | _ => f) f

/-- The value of `gutil_log_func2` at the end of the history -/
def func2At (f : Option Proc2) (h : List Event) : Option Proc2 :=
  h.foldl (fun f e => match e with | .set (.func2 p) => p | _ => f) f

/-- The value of `log_proc` of the module `i` at the end of the history -/
def procAt (i : Nat) (f : Option Proc2) (h : List Event) : Option Proc2 :=
  h.foldl (fun f e => match e with | .set (.proc j p) => if j = i then p else f | _ => f) f

/-- What the thread has produced -/
def outs (t : Nat) (h : List Event) : List Out := h.filterMap (fun | .out u o => if u = t then some o else none | _ => none)

/-- What the thread has been asked to log -/
def jobs (t : Nat) (h : List Event) : List Job := h.filterMap (fun | .began u j => if u = t then some j else none | _ => none)

/-- The part of the history `h` which belongs to the last call made by the thread: it begins with the thread calling `gutil_log`, and there are no other such
calls. -/
def During (t : Nat) (h : List Event) (j : Job) (before call : List Event) : Prop :=
  h = before ++ .began t j :: call ∧ ∀ k, Event.began t k ∉ call

/-- That's the message, or that's what it has been printed as. -/
def Carries (j : Job) : Out → Prop
  | .call _ _ level msg => level = j.level ∧ msg = j.msg
  | .call2 _ module level msg => module = j.module.getD 0 ∧ level = j.level ∧ msg = j.msg
  | .stdio _ text => ∃ pfx, text = pfx ++ j.msg ++ [0x0a]
  | .syslog _ text => ∃ pfx, text = pfx ++ j.msg
  | .glib _ _ msg => msg = j.msg

end Verif.LogThreads
