import Verif.Model.LogMacros

/-!
# Model of the macros of `/repo/include/gutil_log.h` for compilers other than gcc and clang

If `GLOG_VARARGS` isn't defined then the macros which log something are names of inline functions (lines 219-233, 284-291, 304-311, 324-331, 348-357, 370-377),
whose arguments are evaluated like those of any other function.

Simplified: those of `Model/LogMacros.lean`. A format which is `NULL` is the same as an empty one here (that's what the functions make of it). GDEBUG_DUMP and
GDEBUG_DUMP_BYTES don't exist in this case.
-/

namespace Verif.LogPortable
open Verif.C Verif.Log Verif.LogMacros

/-- What's passed to those functions: is the format `NULL` or empty, and the message. include/gutil_log.h:225-232. -/
structure Format where
  empty : Bool
  text : Str
  deriving DecidableEq, Repr

/-- Does the header compile? Line 356 of include/gutil_log.h uses GLOG_VA_NONE_, which isn't defined anywhere (GLOG_VA_NONE is). Lines 340-358. -/
def compiles (b : Build) : Bool := b.levelMax ≥ DEBUG

/-- `GERR`, `GWARN`, `GINFO`, `GDEBUG` and `GVERBOSE`, according to the level. include/gutil_log.h:219-233, 284-291, 304-311, 324-331, 348-357, 370-377. -/
def message {σ : Type} (env : Env) (cfg : σ → Log.State) (b : Build) (level : Int) (args : Expr σ Format) (p : σ) : M (List Out × σ) := do
  let (f, p) ← args p
  if b.levelMax ≥ level then
    if f.empty then .ok ([], p)
    else do
      let out ← logv env (cfg p) b.module level f.text
      .ok (out, p)
  else .ok ([], p)

/-- A statement of a program, like `Verif.LogMacros.Stmt`. It uses the macros at include/gutil_log.h:211-378. -/
inductive Stmt (σ : Type)
  /-- anything which doesn't use them -/
  | other (f : σ → M σ)
  | message (level : Int) (args : Expr σ Format)
  | message_ (func : Str) (level : Int) (args : Expr σ Format)
  | assert (text : Str) (e : Expr σ Bool)
  | verify (text : Str) (e : Expr σ Bool)
  | verifyFalse (text : Str) (e : Expr σ Bool)
  | verifyRel (text : Str) (r : Rel) (e v : Expr σ Int)

/-- One statement. `GERR_` is `GERR` (and so on), include/gutil_log.h:284, 304, 324, 348, 370. -/
def exec {σ : Type} (env : Env) (cfg : σ → Log.State) (b : Build) (rightFirst : Bool) (p : σ) : Stmt σ → M (List Out × σ)
  | .other f => do
    let p ← f p
    .ok ([], p)
  | .message l a => message env cfg b l a p
  | .message_ _ l a => message env cfg b l a p
  | .assert t e => gassert env cfg b t e p
  | .verify t e => LogMacros.verify env cfg b t e p
  | .verifyFalse t e => LogMacros.verifyFalse env cfg b t e p
  | .verifyRel t r e v => LogMacros.verifyRel env cfg b rightFirst t r e v p

/-- Several statements. No code of the library, a sequence of uses of include/gutil_log.h:211-378. -/
def run {σ : Type} (env : Env) (cfg : σ → Log.State) (b : Build) (rightFirst : Bool) : List (Stmt σ) → σ → M (List Out × σ)
  | [], p => .ok ([], p)
  | s :: t, p => do
    let (o, p) ← exec env cfg b rightFirst p s
    let (os, p) ← run env cfg b rightFirst t p
    .ok (o ++ os, p)

/-- A program, `none` if it doesn't compile. include/gutil_log.h:211-378. -/
def program {σ : Type} (env : Env) (cfg : σ → Log.State) (b : Build) (rightFirst : Bool) (prog : List (Stmt σ)) (p : σ) : Option (M (List Out × σ)) :=
  if compiles b then some (run env cfg b rightFirst prog p) else none

end Verif.LogPortable
