import Verif.Model.Log
import Verif.Model.LogMacros

/-!
# Modules defined by the macros of `/repo/include/gutil_log.h`, and the macros which use them

Simplified: addresses of modules are their numbers, 0 is `gutil_log_default`; `max_level` isn't used by anything, it's omitted (as in `Model/Log.lean`).
-/

namespace Verif.LogDefine
open Verif.C Verif.Log Verif.LogMacros

/-- A use of one of the two macros. include/gutil_log.h:192-197, and lines 201-204. -/
inductive Def
  | define (name : Str)
  | define2 (name : Str) (parent : Nat)
  deriving DecidableEq, Repr

/-- `GLOG_MODULE_DEFINE_` and `GLOG_MODULE_DEFINE2_`, include/gutil_log.h:192-197 -/
def Def.module : Def → Module
  | .define name => { name := some name, parent := none, proc := none, level := INHERIT, hideName := false, disable := false }
  | .define2 name parent => { name := some name, parent := some parent, proc := none, level := INHERIT, hideName := false, disable := false }

/-- The log as it is when the program starts, src/gutil_log.c:63-84 and include/gutil_log.h:192-197 -/
def start (dflt : Int) (defs : List Def) : Log.State := initial dflt (defs.map Def.module)

/-- `GLOG_LEVEL_DEFAULT`, include/gutil_log.h:60-66; `over` is its value if it's defined. -/
def levelDefault (debug : Bool) (over : Option Int) : Int := over.getD (if debug then DEBUG else INFO)

/-- `GDEBUG_DUMP`, include/gutil_log.h:340-341 and 347: arguments aren't evaluated unless messages of the level are compiled in. -/
def debugDump {σ : Type} (fuel : Nat) (env : Env) (ct : Ctype) (cfg : σ → Log.State) (b : Build) (args : Expr σ (List Byte × Nat)) (p : σ) : M (List Out × σ) :=
  if b.levelMax ≥ DEBUG then do
    let ((data, size), p) ← args p
    let out ← dump fuel env ct (cfg p) b.module DEBUG none data size
    .ok (out, p)
  else .ok ([], p)

/-- `GDEBUG_DUMP_BYTES`, include/gutil_log.h:342-343 and 348 -/
def debugDumpBytes {σ : Type} (fuel : Nat) (env : Env) (ct : Ctype) (cfg : σ → Log.State) (b : Build) (args : Expr σ (Option (List Byte))) (p : σ) : M (List Out × σ) :=
  if b.levelMax ≥ DEBUG then do
    let (bytes, p) ← args p
    let out ← dumpBytes fuel env ct (cfg p) b.module DEBUG none bytes
    .ok (out, p)
  else .ok ([], p)

end Verif.LogDefine
