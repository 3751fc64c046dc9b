import Verif.Spec.LogThreads

/-!
# The log used by several threads

There are no locks in src/gutil_log.c. A thread which logs something reads variables of the log (and fields of modules) one by one, and other threads may log
something and change the configuration in between. Each read, together with what the thread does before the next one, is a step; steps of all threads are
interleaved in any order. Reads and writes of a single variable are atomic and nothing is reordered (formally any such race is undefined in C11).

Simplifications: `gutil_log_syslog` reads everything it needs at once, and so does `fprintf` (src/gutil_log.c:212-226); `gutil_log_set_timestamp_format` is a
single step (for its own steps see `Model/LogFormat.lean`); log functions from outside of the library return at once (for what they may do see `Model/LogCb.lean`); time doesn't pass, the
timestamp which corresponds to a format is always the same. `gutil_log_set_type` changes the name and then the function. Dumps are a number of messages.
-/

namespace Verif.LogThreads
open Verif.C
open Verif.Log (Module Proc Proc2 Out Env Ftime)

/-- The configuration, src/gutil_log.c:63-84 -/
abbrev Config := Log.State

/-- Where the thread is; that's what it's going to read next:
`entry`: `gutil_log_func2`, src/gutil_log.c:439;
`flags`: flags of `check`, line 413;
`inherit`, `hasParent`: level and parent of `check`, line 414;
`parent`: the parent again, line 415;
`own`: level of `check`, line 418;
`ownLevel`: the level again, line 419;
`default`: the default level, line 419;
`hasProc`, `proc`, `func2`: `log_proc` of the module (twice), and `gutil_log_func2`, line 425;
`func`: `gutil_log_func`, line 396;
`hideName`, `name`: flags and name of the module, line 398;
`wrap`: name of the module, lines 257, 267, 348 and 380;
`stamp`: `gutil_log_timestamp`, line 176;
`format`: `gutil_log_ftime`, line 176, `first`: what it points to;
`again`: `gutil_log_ftime`, line 184, `strftime`: what it points to;
`print`: the message is about to be printed, lines 200-226. -/
inductive Pc
  | idle
  | entry (j : Job)
  | flags (j : Job) (check : Option Nat)
  | inherit (j : Job) (check : Nat)
  | hasParent (j : Job) (check : Nat)
  | parent (j : Job) (check : Nat)
  | own (j : Job) (check : Nat)
  | ownLevel (j : Job) (check : Nat)
  | default (j : Job)
  | hasProc (j : Job)
  | proc (j : Job)
  | func2 (j : Job)
  | func (j : Job)
  | hideName (j : Job) (p : Proc)
  | name (j : Job) (p : Proc)
  | wrap (j : Job) (p : Proc)
  | stamp (j : Job) (err : Bool) (name : Option Str)
  | format (j : Job) (err : Bool) (name : Option Str)
  | first (j : Job) (err : Bool) (name : Option Str) (f : Ftime)
  | again (j : Job) (err : Bool) (name : Option Str)
  | strftime (j : Job) (err : Bool) (name : Option Str) (f : Ftime)
  | print (j : Job) (err : Bool) (name : Option Str) (stamp : Str)
  deriving DecidableEq, Repr

/-- What a thread does in a step. src/gutil_log.c:162-442. -/
inductive Note
  | called2 (module : Nat) (p : Proc2)
  | called (p : Proc)
  | out (o : Out)
  deriving DecidableEq, Repr

/-- The module which logs the message, src/gutil_log.c:424 -/
def Job.target (j : Job) : Nat := j.module.getD 0

/-- The string which the pointer points to. `gutil_log_ftime`, src/gutil_log.c:176 and 184. -/
def chars (c : Config) : Ftime → M Str
  | .default => .ok Log.ftimeDefault
  | .at a => str c.heap a

/-- Lines 420-421 of src/gutil_log.c -/
def compare (j : Job) (max : Int) : Pc := if Log.passes j.level max then .hasProc j else .idle

/-- A function of type `GLogProc` has been called: src/gutil_log.c:230-248, 273-339, 354-371, or another one -/
def enter (env : Env) (c : Config) (j : Job) (p : Proc) (name : Option Str) : M (Pc × List Note) :=
  match p with
  | .stdout => .ok (.stamp j false name, [])
  | .stderr => .ok (.stamp j true name, [])
  | .syslog => do
    let o ← Log.syslog env c name j.level j.msg
    .ok (.idle, o.map .out)
  | .glib => .ok (.idle, (Log.glib name j.level j.msg).map .out)
  | .other id => .ok (.idle, [.out (.call id name j.level j.msg)])

/-- `gutil_log_func` has been called. src/gutil_log.c:396-399. -/
def enterFunc (env : Env) (c : Config) (j : Job) (p : Proc) (name : Option Str) : M (Pc × List Note) := do
  let r ← enter env c j p name
  .ok (r.1, .called p :: r.2)

/-- A function of type `GLogProc2` has been called: `gutil_log_default_proc`, src/gutil_log.c:388-401, a wrapper (lines 250-268, 341-349, 373-381)
or another one -/
def enter2 (j : Job) (p : Option Proc2) : M (Pc × List Note) :=
  match p with
  | none => .error .nullCall
  | some .default => .ok (.func j, [.called2 j.target .default])
  | some (.wrap p) => .ok (.wrap j p, [.called2 j.target (.wrap p)])
  | some (.other id) => .ok (.idle, [.called2 j.target (.other id), .out (.call2 id j.target j.level j.msg)])

/-- The next step of the thread: where it is then, and what it has done. src/gutil_log.c:162-228, 388-442 -/
def next (env : Env) (c : Config) : Pc → M (Pc × List Note)
  | .idle => .error .badArg
  | .entry j => .ok (if j.level ≠ Log.NONE ∧ c.func2.isSome then .flags j j.module else .idle, [])
  | .flags j none => .ok (.default j, [])
  | .flags j (some i) => do
    let m ← c.get i
    .ok (if m.disable then .idle else .inherit j i, [])
  | .inherit j i => do
    let m ← c.get i
    .ok (if m.level = Log.INHERIT then .hasParent j i else .own j i, [])
  | .hasParent j i => do
    let m ← c.get i
    .ok (if m.parent.isSome then .parent j i else .own j i, [])
  | .parent j i => do
    let m ← c.get i
    .ok (.flags j m.parent, [])
  | .own j i => do
    let m ← c.get i
    .ok (if m.level ≠ Log.INHERIT then .ownLevel j i else .default j, [])
  | .ownLevel j i => do
    let m ← c.get i
    .ok (compare j m.level, [])
  | .default j => do
    let d ← c.get 0
    .ok (compare j d.level, [])
  | .hasProc j => do
    let m ← c.get j.target
    .ok (if m.proc.isSome then .proc j else .func2 j, [])
  | .proc j => do
    let m ← c.get j.target
    enter2 j m.proc
  | .func2 j => enter2 j c.func2
  | .func j =>
    match c.func with
    | some p => .ok (.hideName j p, [])
    | none => .ok (.idle, [])
  | .hideName j p => do
    let m ← c.get j.target
    if m.hideName then enterFunc env c j p none else .ok (.name j p, [])
  | .name j p => do
    let m ← c.get j.target
    enterFunc env c j p m.name
  | .wrap j p => do
    let m ← c.get j.target
    enter env c j p m.name
  | .stamp j err name => .ok (if c.timestamp then .format j err name else .print j err name [], [])
  | .format j err name => .ok (.first j err name c.ftime, [])
  | .first j err name f => do
    let t ← chars c f
    .ok (if t ≠ [] then .again j err name else .print j err name [], [])
  | .again j err name => .ok (.strftime j err name c.ftime, [])
  | .strftime j err name f => do
    let t ← chars c f
    let t ← Log.stamp env t
    .ok (.print j err name t, [])
  | .print j err name t => do
    let m ← Log.format j.msg
    .ok (.idle, [.out (.stdio err (Log.tidText env c ++ t ++ Log.nameText (Log.dropEmpty name) ++ Log.stdioPrefix j.level ++ m ++ Log.lit "\n"))])

/-- A field of a module is changed. No code of the library: the program assigns to a field of `GLogModule`, include/gutil_log.h:87-95. -/
def modify (c : Config) (i : Nat) (f : Module → Module) : Config := { c with modules := c.modules.modify i f }

/-- The configuration is changed, include/gutil_log.h:87-111 and src/gutil_log.c:562-579. -/
def change (c : Config) : Setting → M Config
  | .func p => .ok { c with func := p }
  | .func2 p => .ok { c with func2 := p }
  | .proc i p => .ok (modify c i (fun m => { m with proc := p }))
  | .level i l => .ok (modify c i (fun m => { m with level := l }))
  | .parent i p => .ok (modify c i (fun m => { m with parent := p }))
  | .flags i h d => .ok (modify c i (fun m => { m with hideName := h, disable := d }))
  | .name i n => .ok (modify c i (fun m => { m with name := n }))
  | .timestamp b => .ok { c with timestamp := b }
  | .tid b => .ok { c with tid := b }
  | .format f => Log.setTimestampFormat c f

/-- The configuration, where the threads are, and the history. The variables at src/gutil_log.c:63-83. -/
structure State where
  cfg : Config
  pc : Nat → Pc
  hist : List Event

/-- What happens next: the thread calls `gutil_log`, the thread goes on, the configuration is changed.
src/gutil_log.c:404-456 and 562-722. -/
inductive Act
  | begin (t : Nat) (j : Job)
  | next (t : Nat)
  | set (x : Setting)
  deriving DecidableEq, Repr

/-- Nobody has logged anything yet. The variables at src/gutil_log.c:63-83. -/
def start (c : Config) : State := ⟨c, fun _ => .idle, []⟩

/-- The thread is somewhere else now. No code of the library, bookkeeping for the properties of src/gutil_log.c:162-442. -/
def State.goto (s : State) (t : Nat) (pc : Pc) : State := { s with pc := fun u => if u = t then pc else s.pc u }

/-- What goes to the history. No code of the library, bookkeeping for the properties of src/gutil_log.c:162-442. -/
def Note.event (t : Nat) : Note → Event
  | .called2 i p => .called2 t i p
  | .called p => .called t p
  | .out o => .out t o

/-- `gutil_log` has returned, or not. No code of the library, bookkeeping for the properties of src/gutil_log.c:162-442. -/
def returned (t : Nat) : Pc → List Event
  | .idle => [.ended t]
  | _ => []

/-- A step. No code of its own, it goes to the model of src/gutil_log.c:162-442. -/
def step (env : Env) (s : State) : Act → M State
  | .begin t j => .ok { s.goto t (.entry j) with hist := s.hist ++ [.began t j] }
  | .next t => do
    let r ← next env s.cfg (s.pc t)
    .ok { s.goto t r.1 with hist := s.hist ++ r.2.map (Note.event t) ++ returned t r.1 }
  | .set x => do
    let c ← change s.cfg x
    .ok { s with cfg := c, hist := s.hist ++ [.set x] }

/-- The rules: a thread does one thing at a time; only existing modules are used; messages aren't longer than 2 GiB; timestamps fit in their
buffer (C87). No code of the library, a rule for those who use src/gutil_log.c:162-442. -/
def Allowed (env : Env) (s : State) : Act → Prop
  | .begin t j => s.pc t = .idle ∧ j.target < s.cfg.modules.length ∧ j.msg.length < 2 ^ 31 - 1
  | .next t => s.pc t ≠ .idle
  | .set (.parent _ (some p)) => p < s.cfg.modules.length
  | .set (.format (some f)) => (env.strftime f).length < 32
  | .set _ => True

/-- What mustn't be done when somebody is logging: removal of log functions, and change of timestamp format.
No code of the library, a rule for those who use src/gutil_log.c:162-442. -/
def dangerous : Setting → Bool
  | .func2 none | .proc _ none | .format _ => true
  | _ => false

/-- The additional rule. No code of the library, a rule for those who use src/gutil_log.c:162-442. -/
def Careful (s : State) : Act → Prop
  | .set x => dangerous x = true → ∀ t, s.pc t = .idle
  | _ => True

/-- What can be reached by following the rules, and additional ones given by `P`.
No code of the library, a sequence of uses of src/gutil_log.c:162-442. -/
inductive Reach (P : State → Act → Prop) (env : Env) (c : Config) : State → Prop
  | start : Reach P env c (start c)
  | step {s s' : State} {a : Act} : Reach P env c s → Allowed env s a → P s a → step env s a = .ok s' → Reach P env c s'

/-- The second state can be reached from the first one by following the rules.
No code of the library, a sequence of uses of src/gutil_log.c:162-442. -/
inductive Path (env : Env) (s : State) : State → Prop
  | refl : Path env s s
  | step {s1 s2 : State} {a : Act} : Path env s s1 → Allowed env s1 a → step env s1 a = .ok s2 → Path env s s2

/-- A number of steps. No code of the library, a sequence of uses of src/gutil_log.c:162-442. -/
def exec (env : Env) (s : State) : List Act → M State
  | [] => .ok s
  | a :: t =>
    match step env s a with
    | .ok s => exec env s t
    | .error e => .error e

end Verif.LogThreads
