import Verif.Model.Log

/-!
# Model of the macros of `/repo/include/gutil_log.h`, and of the messages printed by `gutil_log_init` of `/repo/src/gutil_log.c`

A program is a list of statements, each of which either uses one of the macros or does something else. Expressions
which the macros are given are functions of the state of the program (`σ`), which they may change. They may also have
undefined behaviour. `cfg` extracts the configuration of the log from that state.

Simplified: the log functions don't change the state of the program (they do in `Model/LogCb.lean`). This is the variant
with `GLOG_VARARGS` (that's what's defined with gcc and clang), the other one is in `Model/LogPortable.lean`.
The text of the message is computed together with the arguments.
-/

namespace Verif.LogMacros
open Verif.C Verif.Log

/-- What a source file is compiled with: is `DEBUG` defined, the values of `GLOG_LEVEL_MAX` and `GLOG_LEVEL_ASSERT`
if these are, and `GLOG_MODULE_CURRENT`. include/gutil_log.h:50-76 and 198-207. -/
structure Build where
  debug : Bool
  max : Option Int
  assert : Option Int
  module : Option Nat
  deriving DecidableEq, Repr

/-- `GLOG_LEVEL_MAX`, include/gutil_log.h:50-57 -/
def Build.levelMax (b : Build) : Int := b.max.getD (if b.debug then VERBOSE else DEBUG)

/-- `GLOG_LEVEL_ASSERT`, include/gutil_log.h:67-75 -/
def Build.levelAssert (b : Build) : Int := b.assert.getD (if b.debug then ERR else b.levelMax + 1)

/-- An expression. No code of the library, what's passed to the macros at include/gutil_log.h:211-376. -/
abbrev Expr (σ α : Type) := σ → M (α × σ)

/-- `GERR`, `GWARN`, `GINFO`, `GDEBUG` and `GVERBOSE`, according to the level. include/gutil_log.h:274-376. -/
def message {σ : Type} (env : Env) (cfg : σ → Log.State) (b : Build) (level : Int) (args : Expr σ Str) (p : σ) : M (List Out × σ) :=
  if b.levelMax ≥ level then do
    let (text, p) ← args p
    let out ← logv env (cfg p) b.module level text
    .ok (out, p)
  else .ok ([], p)

/-- `GERR_`, `GWARN_`, `GINFO_`, `GDEBUG_` and `GVERBOSE_`, include/gutil_log.h:274-376. The name of the function is
in front of the message. -/
def message_ {σ : Type} (env : Env) (cfg : σ → Log.State) (b : Build) (func : Str) (level : Int) (args : Expr σ Str) (p : σ) : M (List Out × σ) :=
  if b.levelMax ≥ level then do
    let (text, p) ← args p
    let out ← logv env (cfg p) b.module level (func ++ lit "() " ++ text)
    .ok (out, p)
  else .ok ([], p)

/-- `GASSERT`, include/gutil_log.h:251-253 and 263. `text` is what `gutil_log_assert` prints. -/
def gassert {σ : Type} (env : Env) (cfg : σ → Log.State) (b : Build) (text : Str) (e : Expr σ Bool) (p : σ) : M (List Out × σ) :=
  if b.levelMax ≥ b.levelAssert then do
    let (v, p) ← e p
    if v then .ok ([], p)
    else do
      let out ← logAssert env (cfg p) b.module b.levelAssert text
      .ok (out, p)
  else .ok ([], p)

/-- `GVERIFY`, include/gutil_log.h:254 and 264 -/
def verify {σ : Type} (env : Env) (cfg : σ → Log.State) (b : Build) (text : Str) (e : Expr σ Bool) (p : σ) : M (List Out × σ) :=
  if b.levelMax ≥ b.levelAssert then gassert env cfg b text e p
  else do
    let (_, p) ← e p
    .ok ([], p)

/-- `!(expr)`, part of include/gutil_log.h:255 -/
def negate {σ : Type} (e : Expr σ Bool) : Expr σ Bool := fun p => do
  let (v, p) ← e p
  .ok (!v, p)

/-- `GVERIFY_FALSE`, include/gutil_log.h:255 and 265 -/
def verifyFalse {σ : Type} (env : Env) (cfg : σ → Log.State) (b : Build) (text : Str) (e : Expr σ Bool) (p : σ) : M (List Out × σ) :=
  if b.levelMax ≥ b.levelAssert then gassert env cfg b text (negate e) p
  else do
    let (_, p) ← e p
    .ok ([], p)

/-- The operators at include/gutil_log.h:256-261 -/
inductive Rel
  | eq | ne | ge | gt | le | lt
  deriving DecidableEq, Repr

/-- What they mean for integers, include/gutil_log.h:256-261 -/
def Rel.holds : Rel → Int → Int → Bool
  | .eq, x, y => x == y
  | .ne, x, y => x != y
  | .ge, x, y => Decidable.decide (x ≥ y)
  | .gt, x, y => Decidable.decide (x > y)
  | .le, x, y => Decidable.decide (x ≤ y)
  | .lt, x, y => Decidable.decide (x < y)

/-- `(expr) == (val)` and so on. The order of evaluation is up to the compiler. include/gutil_log.h:256-261. -/
def compare {σ : Type} (rightFirst : Bool) (r : Rel) (e v : Expr σ Int) : Expr σ Bool := fun p =>
  if rightFirst then do
    let (y, p) ← v p
    let (x, p) ← e p
    .ok (r.holds x y, p)
  else do
    let (x, p) ← e p
    let (y, p) ← v p
    .ok (r.holds x y, p)

/-- `GVERIFY_EQ` and so on, include/gutil_log.h:256-261 and 266-271 -/
def verifyRel {σ : Type} (env : Env) (cfg : σ → Log.State) (b : Build) (rightFirst : Bool) (text : Str) (r : Rel) (e v : Expr σ Int) (p : σ) :
    M (List Out × σ) :=
  if b.levelMax ≥ b.levelAssert then gassert env cfg b text (compare rightFirst r e v) p
  else do
    let (_, p) ← e p
    .ok ([], p)

/-- A statement of a program which uses the macros at include/gutil_log.h:211-376 -/
inductive Stmt (σ : Type)
  /-- anything which doesn't use them -/
  | other (f : σ → M σ)
  | message (level : Int) (args : Expr σ Str)
  | message_ (func : Str) (level : Int) (args : Expr σ Str)
  | assert (text : Str) (e : Expr σ Bool)
  | verify (text : Str) (e : Expr σ Bool)
  | verifyFalse (text : Str) (e : Expr σ Bool)
  | verifyRel (text : Str) (r : Rel) (e v : Expr σ Int)

/-- One statement. No code of the library, a use of include/gutil_log.h:211-376. -/
def exec {σ : Type} (env : Env) (cfg : σ → Log.State) (b : Build) (rightFirst : Bool) (p : σ) : Stmt σ → M (List Out × σ)
  | .other f => do
    let p ← f p
    .ok ([], p)
  | .message l a => message env cfg b l a p
  | .message_ f l a => message_ env cfg b f l a p
  | .assert t e => gassert env cfg b t e p
  | .verify t e => verify env cfg b t e p
  | .verifyFalse t e => verifyFalse env cfg b t e p
  | .verifyRel t r e v => verifyRel env cfg b rightFirst t r e v p

/-- A program. No code of the library, a sequence of uses of include/gutil_log.h:211-376. -/
def run {σ : Type} (env : Env) (cfg : σ → Log.State) (b : Build) (rightFirst : Bool) : List (Stmt σ) → σ → M (List Out × σ)
  | [], p => .ok ([], p)
  | s :: t, p => do
    let (o, p) ← exec env cfg b rightFirst p s
    let (os, p) ← run env cfg b rightFirst t p
    .ok (o ++ os, p)

/-- `%d`. (C library) Used at src/gutil_log.c:750. -/
def decimal (v : Int) : Str := (if v < 0 then [0x2d] else []) ++ (Nat.toDigits 10 v.natAbs).map (fun c => BitVec.ofNat 8 c.toNat)

/-- Lines 747-751 of src/gutil_log.c -/
def initLevel (env : Env) (b : Build) (s : Log.State) (var : Option Str) : M (List Out × Log.State) :=
  match intVar var INHERIT with
  | some v => message env id b DEBUG (fun s => .ok (lit "Default log level " ++ decimal v, s)) (s.setLevel 0 v)
  | none => .ok ([], s)

/-- Lines 753-756 of src/gutil_log.c -/
def initTimestamp (env : Env) (b : Build) (s : Log.State) (var : Option Str) : M (List Out × Log.State) :=
  match intVar var 0 with
  | some v => message env id b DEBUG (fun s => .ok (lit "Timestamps " ++ lit (if v > 0 then "enabled" else "disabled"), s)) { s with timestamp := v > 0 }
  | none => .ok ([], s)

/-- Lines 758-761 of src/gutil_log.c -/
def initTid (env : Env) (b : Build) (s : Log.State) (var : Option Str) : M (List Out × Log.State) :=
  match intVar var 0 with
  | some v => message env id b DEBUG (fun s => .ok (lit "Thread id prefix " ++ lit (if v > 0 then "enabled" else "disabled"), s)) { s with tid := v > 0 }
  | none => .ok ([], s)

/-- `gutil_log_init`, src/gutil_log.c:740-762, with its messages; `b` is what the library has been compiled with. -/
def init (env : Env) (b : Build) (s : Log.State) (level timestamp tid : Option Str) : M (List Out × Log.State) := do
  let (o1, s) ← initLevel env b s level
  let (o2, s) ← initTimestamp env b s timestamp
  let (o3, s) ← initTid env b s tid
  .ok (o1 ++ o2 ++ o3, s)

end Verif.LogMacros
