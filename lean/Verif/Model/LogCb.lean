import Verif.Model.Log

/-!
# Log functions which use the log

In `Model/Log.lean` custom log functions do nothing. Here they may do anything: log something, dump something, change the
configuration. It's a labelled transition system: the program is in control outside of any function of the library and whenever
a custom log function has been called, until that function returns (`ret`).

Time doesn't pass: the timestamp which corresponds to a format is always the same. That has no influence on anything else.
-/

namespace Verif.LogCb
open Verif.C
open Verif.Log (Module Proc Proc2 Out Env Ctype)

/-- Configuration of the log, src/gutil_log.c:63-84 -/
abbrev Config := Log.State

/-- What the configuration is changed with: variables and fields of modules which are public (include/gutil_log.h:87-111), all at once;
`gutil_log_set_timestamp_format`, `gutil_log_set_type` and `gutil_log_parse_option` -/
inductive Setting
  | assign (modules : List Module) (func : Option Proc) (func2 : Option Proc2) (timestamp tid : Bool)
  | format (f : Option Str)
  | type (t : Str) (name : Option Str)
  | option (opt : Str) (modules : List Nat)
  deriving DecidableEq, Repr

/-- The new configuration; src/gutil_log.c:562-579, 684-722, 618-653 -/
def change (c : Config) : Setting → M Config
  | .assign modules func func2 timestamp tid => .ok { c with modules := modules, func := func, func2 := func2, timestamp := timestamp, tid := tid }
  | .format f => Log.setTimestampFormat c f
  | .type t name => .ok (Log.setType c t name).1
  | .option opt modules => do
    let r ← Log.parseOption c opt modules
    .ok r.1

/-- The history: the program calls something (`log`, `dump`) and that returns (`done`), the configuration is changed, something is printed
or a custom log function is called (`out`) and returns (`ret`).
No code of the library, bookkeeping for the properties of src/gutil_log.c:404-579 and 618-722. -/
inductive Event
  | log (module : Option Nat) (level : Int) (msg : Str)
  | dump (module : Option Nat) (level : Int) (pfx : Option Str) (data : List Byte)
  | done
  | set (x : Setting)
  | out (o : Out)
  | ret
  deriving DecidableEq, Repr

/-- Calls which are waiting for a custom log function: `gutil_log`, and the local variables of `gutil_log_dump2`, src/gutil_log.c:502-523 -/
inductive Call
  | log
  | dump (module : Option Nat) (level : Int) (pfx : Str) (data : List Byte) (off size : Nat)
  deriving DecidableEq, Repr

/-- The configuration, calls in progress (the innermost one is the first), and the history. The variables at src/gutil_log.c:63-83. -/
structure State where
  cfg : Config
  stack : List Call
  hist : List Event
  deriving DecidableEq, Repr

/-- Is it a call of a custom log function?
No code of the library, bookkeeping for the properties of src/gutil_log.c:404-579 and 618-722. -/
def custom : Out → Bool
  | .call .. | .call2 .. => true
  | _ => false

/-- Something has happened. No code of the library, bookkeeping for the properties of src/gutil_log.c:404-579 and 618-722. -/
def State.note (s : State) (e : Event) : State := { s with hist := s.hist ++ [e] }

/-- Something has been printed, or a custom log function has been called.
No code of the library, bookkeeping for the properties of src/gutil_log.c:404-579 and 618-722. -/
def State.output (s : State) (outs : List Out) : State := { s with hist := s.hist ++ outs.map .out }

/-- The loop in `gutil_log_dump2`, src/gutil_log.c:515-522; see `Log.dumpLoop`. -/
def dumpLoop (env : Env) (ct : Ctype) (module : Option Nat) (level : Int) (pfx : Str) (data : List Byte) : (fuel : Nat) → State → (off size : Nat) → M State
  | 0, _, _, _ => .error .diverge
  | fuel + 1, s, off, size =>
    if size > 0 then do
      let (msg, consumed) ← Log.dumpLine ct pfx data off size
      let outs ← Log.logv env s.cfg module level msg
      if outs.any custom then
        .ok { s.output outs with stack := .dump module level pfx data ((off + consumed) % 2 ^ 32) (size - consumed) :: s.stack }
      else dumpLoop env ct module level pfx data fuel (s.output outs) ((off + consumed) % 2 ^ 32) (size - consumed)
    else .ok (s.note .done)

/-- `gutil_log`, src/gutil_log.c:404-456, until it returns or calls a custom log function -/
def log (env : Env) (s : State) (module : Option Nat) (level : Int) (msg : Str) : M State := do
  let outs ← Log.logv env s.cfg module level msg
  if outs.any custom then .ok { s.output outs with stack := .log :: s.stack }
  else .ok ((s.output outs).note .done)

/-- `gutil_log_dump` and `gutil_log_dump_bytes`, src/gutil_log.c:525-551, until that returns or calls a custom log function. The size
is less than 4 GiB (see C62). -/
def dump (env : Env) (ct : Ctype) (s : State) (module : Option Nat) (level : Int) (pfx : Option Str) (data : List Byte) : M State := do
  let e ← Log.enabled s.cfg module level
  if e then dumpLoop env ct module level (pfx.getD []) data (data.length + 1) s 0 data.length else .ok (s.note .done)

/-- A custom log function returns. src/gutil_log.c:515-522. -/
def ret (env : Env) (ct : Ctype) (s : State) : M State :=
  match s.stack with
  | [] => .error .badArg
  | .log :: t => .ok ({ s with stack := t }.note .done)
  | .dump module level pfx data off size :: t => dumpLoop env ct module level pfx data (size + 1) { s with stack := t } off size

/-- What the program does. No code of its own, it goes to the model of src/gutil_log.c:404-579 and 618-722. -/
inductive Act
  | log (module : Option Nat) (level : Int) (msg : Str)
  | dump (module : Option Nat) (level : Int) (pfx : Option Str) (data : List Byte)
  | set (x : Setting)
  | ret
  deriving DecidableEq, Repr

/-- A step. No code of its own, it goes to the model of src/gutil_log.c:404-579 and 618-722. -/
def step (env : Env) (ct : Ctype) (s : State) : Act → M State
  | .log module level msg => log env (s.note (.log module level msg)) module level msg
  | .dump module level pfx data => dump env ct (s.note (.dump module level pfx data)) module level pfx data
  | .set x => do
    let c ← change s.cfg x
    .ok ({ s with cfg := c }.note (.set x))
  | .ret => ret env ct (s.note .ret)

/-- No module is its own ancestor, and there's at least the default one.
No code of the library, a rule for those who use src/gutil_log.c:404-579 and 618-722. -/
def Sane (modules : List Module) : Prop :=
  modules ≠ [] ∧ ∃ rank : Nat → Nat, ∀ (i : Nat) m p, modules[i]? = some m → m.parent = some p → p < modules.length ∧ rank p < rank i

/-- The rules: only existing modules are used, and they don't cease to exist; messages aren't longer than 2 GiB, blocks are less than 4 GiB; timestamps fit in
their buffer (C87), modules which are selected by name have names (C60).
No code of the library, a rule for those who use src/gutil_log.c:404-579 and 618-722. -/
def Allowed (env : Env) (ct : Ctype) (s : State) : Act → Prop
  | .log module _ msg => module.getD 0 < s.cfg.modules.length ∧ msg.length < 2 ^ 31 - 1
  | .dump module _ pfx data => module.getD 0 < s.cfg.modules.length ∧ (pfx.getD []).length < 2 ^ 30 ∧ data.length < 2 ^ 32 ∧
    ct.printable 0 = false ∧ (ct.mode = .wrap ∨ ct.signed = false ∨ ∀ b ∈ data, b.toNat < 128)
  | .set (.assign modules _ _ _ _) => Sane modules ∧ s.cfg.modules.length ≤ modules.length
  | .set (.format (some f)) => (env.strftime f).length < 32
  | .set (.option _ modules) => ∀ i ∈ modules, ∃ m n, s.cfg.modules[i]? = some m ∧ m.name = some n
  | .set _ => True
  | .ret => s.stack ≠ []

/-- What can be reached, from the initial configuration `c`.
No code of the library, a sequence of uses of src/gutil_log.c:404-579 and 618-722. -/
inductive Reach (env : Env) (ct : Ctype) (c : Config) : State → Prop
  | init : Reach env ct c ⟨c, [], []⟩
  | step {s s' : State} {a : Act} : Reach env ct c s → Allowed env ct s a → step env ct s a = .ok s' → Reach env ct c s'

/-- A number of actions. No code of the library, a sequence of uses of src/gutil_log.c:404-579 and 618-722. -/
def exec (env : Env) (ct : Ctype) (s : State) : List Act → M State
  | [] => .ok s
  | a :: t =>
    match step env ct s a with
    | .ok s => exec env ct s t
    | .error e => .error e

end Verif.LogCb
