import Verif.C.Ptrv
import Verif.Model.MiscHex
import Verif.Model.MiscParse

/-!
# Model of `/repo/src/gutil_log.c`

Log modules are in `State.modules`, pointers to them are indices there; `gutil_log_default` is
the first one. A message is the text which the format and the arguments produce. The output is
the list of the calls which leave the library: custom log functions, stdio, syslog, g_logv.
Custom log functions don't change the configuration and don't log anything themselves; those which do are in `Model/LogCb.lean`.

The platform is a unix one with syslog and glib (`GLOG_SYSLOG`, `GLOG_GLIB` and `gettid` are
there).
-/

namespace Verif.Log
open Verif.C

/-- ASCII text. String literals in src/gutil_log.c. -/
def lit (s : String) : Str := s.toUTF8.toList.map (fun c => BitVec.ofNat 8 c.toNat)

/-- `GLOG_LEVEL_ALWAYS`, include/gutil_log.h:42 -/
def ALWAYS : Int := -2
/-- `GLOG_LEVEL_INHERIT`, include/gutil_log.h:43 -/
def INHERIT : Int := -1
/-- `GLOG_LEVEL_NONE`, include/gutil_log.h:44 -/
def NONE : Int := 0
/-- `GLOG_LEVEL_ERR`, include/gutil_log.h:45 -/
def ERR : Int := 1
/-- `GLOG_LEVEL_WARN`, include/gutil_log.h:46 -/
def WARN : Int := 2
/-- `GLOG_LEVEL_INFO`, include/gutil_log.h:47 -/
def INFO : Int := 3
/-- `GLOG_LEVEL_DEBUG`, include/gutil_log.h:48 -/
def DEBUG : Int := 4
/-- `GLOG_LEVEL_VERBOSE`, include/gutil_log.h:49 -/
def VERBOSE : Int := 5

/-- The functions of type `GLogProc`: those in src/gutil_log.c:230-248, 273-339 and 354-371,
and any other one -/
inductive Proc
  | stdout
  | stderr
  | syslog
  | glib
  | other (id : Nat)
  deriving DecidableEq, Repr

/-- The functions of type `GLogProc2`: the wrappers in src/gutil_log.c:250-268, 341-349 and
373-381, `gutil_log_default_proc` and any other one -/
inductive Proc2
  | default
  | wrap (p : Proc)
  | other (id : Nat)
  deriving DecidableEq, Repr

/-- `struct glog_module`, include/gutil_log.h:87-95, without `max_level` and `reserved2`, which
aren't used. The bits of `flags` are separate fields (lines 97-98 of the header). -/
structure Module where
  name : Option Str
  parent : Option Nat
  proc : Option Proc2
  level : Int
  hideName : Bool
  disable : Bool
  deriving DecidableEq, Repr

/-- What `gutil_log_ftime` points to, src/gutil_log.c:66 -/
inductive Ftime
  | default
  | at (a : Nat)
  deriving DecidableEq, Repr

/-- The variables at src/gutil_log.c:63-84; `opened`: `openlog` has been called after the last
`closelog`; `heap`: the strings allocated by `gutil_log_set_timestamp_format`. -/
structure State where
  modules : List Module
  func : Option Proc
  func2 : Option Proc2
  timestamp : Bool
  tid : Bool
  ftime : Ftime
  custom : Option Nat
  heap : Heap
  opened : Bool
  deriving DecidableEq, Repr

/-- `gutil_log_ftime_default`, src/gutil_log.c:65 -/
def ftimeDefault : Str := lit "%Y-%m-%d %H:%M:%S "

/-- `gutil_log_default`, src/gutil_log.c:76-84. `dflt` is `GLOG_LEVEL_DEFAULT`. -/
def defaultModule (dflt : Int) : Module := ⟨none, none, none, dflt, false, false⟩

/-- The initial values, src/gutil_log.c:63-84 -/
def initial (dflt : Int) (others : List Module) : State where
  modules := defaultModule dflt :: others
  func := some .stdout
  func2 := some .default
  timestamp := false
  tid := false
  ftime := .default
  custom := none
  heap := []
  opened := false

/-- The outside world: what `strftime` makes of a format now, and the decimal thread id.
`strftime` and `syscall(SYS_gettid)` at src/gutil_log.c:45, 184, 215 and 222. -/
structure Env where
  strftime : Str → Str
  tid : Str

/-- What leaves the library. src/gutil_log.c:161-401. -/
inductive Out
  | call (id : Nat) (name : Option Str) (level : Int) (msg : Str)
  | call2 (id : Nat) (module : Nat) (level : Int) (msg : Str)
  | stdio (err : Bool) (text : Str)
  | syslog (priority : Nat) (text : Str)
  | glib (domain : Option Str) (flags : Nat) (msg : Str)
  deriving DecidableEq, Repr

/-- `*module`. A pointer to `GLogModule`, include/gutil_log.h:87-95. -/
def State.get (s : State) (i : Nat) : M Module :=
  match s.modules[i]? with
  | some m => .ok m
  | none => .error .badPtr

/-- `g_vsnprintf(buffer, size, format, va)`, the text being `msg`: what's in the buffer and the
result. (GLib) Called at src/gutil_log.c:143. -/
def vsnprintf (size : Int) (msg : Str) : Str × Int :=
  (msg.take (size.toNat - 1), if (msg.length : Int) ≤ intMax then msg.length else -1)

/-- Next size of the buffer, src/gutil_log.c:147-152 -/
def nextSize (size nchars : Int) : M Int :=
  if nchars ≥ 0 then chk32 (nchars + 1) else chk32 (size * 2)

/-- The loop in `gutil_log_format`, src/gutil_log.c:138-156 (`buffer` isn't `NULL`, allocation
never fails). -/
def formatLoop (msg : Str) : (fuel : Nat) → (size : Int) → M Str
  | 0, _ => .error .diverge
  | fuel + 1, size =>
    let (text, nchars) := vsnprintf size msg
    if nchars ≥ 0 ∧ nchars < size then .ok text
    else do
      let size ← nextSize size nchars
      formatLoop msg fuel size

/-- `gutil_log_format`, src/gutil_log.c:119-159, as called from lines 200 and 318: with a
buffer of 512 bytes on the stack. There are no more than 32 iterations, as the size overflows
by then. -/
def format (msg : Str) : M Str := formatLoop msg 32 512

/-- The timestamp format, src/gutil_log.c:66 -/
def ftime (s : State) : M Str :=
  match s.ftime with
  | .default => .ok ftimeDefault
  | .at a => str s.heap a

/-- The timestamp, src/gutil_log.c:176-184. If the result doesn't fit in the 32 bytes, `strftime`
leaves unspecified contents there, which are then printed. -/
def stamp (env : Env) (f : Str) : M Str :=
  if (env.strftime f).length < 32 then .ok (env.strftime f) else .error .uninit

/-- Lines 175-188 of src/gutil_log.c -/
def stampIf (env : Env) (s : State) : M Str :=
  if s.timestamp then do
    let f ← ftime s
    if f ≠ [] then stamp env f else .ok []
  else .ok []

/-- Lines 190-193 of src/gutil_log.c: empty name is the same as `NULL`. -/
def dropEmpty (name : Option Str) : Option Str := if name = some [] then none else name

/-- Lines 195-199 of src/gutil_log.c -/
def stdioPrefix (level : Int) : Str :=
  if level = WARN then lit "WARNING: " else if level = ERR then lit "ERROR: " else []

/-- `[%d] `, if thread id is to be printed, src/gutil_log.c:215, 222, 323, 330 -/
def tidText (env : Env) (s : State) : Str := if s.tid then lit "[" ++ env.tid ++ lit "] " else []

/-- `[%s] `, src/gutil_log.c:212-218 and 320-326 -/
def nameText (name : Option Str) : Str :=
  match name with
  | some n => lit "[" ++ n ++ lit "] "
  | none => []

/-- `gutil_log_stdio`, src/gutil_log.c:162-228. -/
def stdio (env : Env) (s : State) (err : Bool) (name : Option Str) (level : Int) (msg : Str) : M (List Out) := do
  let t ← stampIf env s
  let m ← format msg
  .ok [.stdio err (tidText env s ++ t ++ nameText (dropEmpty name) ++ stdioPrefix level ++ m ++ lit "\n")]

/-- The priority, src/gutil_log.c:283-302; `LOG_ERR` is 3, `LOG_WARNING` 4, `LOG_NOTICE` 5,
`LOG_INFO` 6, `LOG_DEBUG` 7. -/
def priority (level : Int) : Nat :=
  if level = VERBOSE then 7 else if level = DEBUG then 6 else if level = WARN then 4 else if level = ERR then 3 else 5

/-- The prefix, src/gutil_log.c:296 and 300; `NULL` and empty one are different. -/
def syslogPrefix (level : Int) : Option Str :=
  if level = WARN then some (lit "WARNING! ") else if level = ERR then some (lit "ERROR! ") else none

/-- Lines 304-310 of src/gutil_log.c -/
def syslogName (dflt name : Option Str) : Option Str :=
  if name = some [] ∨ name = dflt then none else name

/-- `gutil_log_syslog`, src/gutil_log.c:273-339 -/
def syslog (env : Env) (s : State) (name : Option Str) (level : Int) (msg : Str) : M (List Out) := do
  let d ← s.get 0
  if (syslogName d.name name).isSome ∨ (syslogPrefix level).isSome ∨ s.tid then do
    let m ← format msg
    .ok [.syslog (priority level)
      (tidText env s ++ nameText (syslogName d.name name) ++ (syslogPrefix level).getD [] ++ m)]
  else .ok [.syslog (priority level) msg]

/-- `gutil_log_glib`, src/gutil_log.c:354-371; `G_LOG_LEVEL_CRITICAL` is 8, `WARNING` 16,
`MESSAGE` 32, `INFO` 64, `DEBUG` 128. -/
def glib (name : Option Str) (level : Int) (msg : Str) : List Out :=
  let flags := if level = VERBOSE then 128 else if level = DEBUG then 64 else if level = WARN then 16
    else if level = ERR then 8 else 32
  [.glib name flags msg]

/-- A call of `GLogProc`. src/gutil_log.c:396-400. -/
def callProc (env : Env) (s : State) (p : Proc) (name : Option Str) (level : Int) (msg : Str) : M (List Out) :=
  match p with
  | .stdout => stdio env s false name level msg
  | .stderr => stdio env s true name level msg
  | .syslog => syslog env s name level msg
  | .glib => .ok (glib name level msg)
  | .other id => .ok [.call id name level msg]

/-- `gutil_log_default_proc`, src/gutil_log.c:388-401 -/
def defaultProc (env : Env) (s : State) (module : Nat) (level : Int) (msg : Str) : M (List Out) := do
  let m ← s.get module
  match s.func with
  | some log => callProc env s log (if m.hideName then none else m.name) level msg
  | none => .ok []

/-- A call of `GLogProc2`. The wrappers at lines 250-268, 341-349 and 373-381 of src/gutil_log.c
pass the name of the module. -/
def callProc2 (env : Env) (s : State) (p : Proc2) (module : Nat) (level : Int) (msg : Str) : M (List Out) :=
  match p with
  | .default => defaultProc env s module level msg
  | .wrap p => do
    let m ← s.get module
    callProc env s p m.name level msg
  | .other id => .ok [.call2 id module level msg]

/-- `(level > GLOG_LEVEL_NONE && level <= max_level) || (level == GLOG_LEVEL_ALWAYS)`,
src/gutil_log.c:420-421 and 485-486 -/
def passes (level max : Int) : Bool := decide ((NONE < level ∧ level ≤ max) ∨ level = ALWAYS)

/-- Lines 422-426 of src/gutil_log.c: the function which gets the message. -/
def emit (env : Env) (s : State) (module : Option Nat) (level : Int) (msg : Str) : M (List Out) := do
  let i := module.getD 0
  let m ← s.get i
  match (if m.proc.isSome then m.proc else s.func2) with
  | some log => callProc2 env s log i level msg
  | none => .error .nullCall

/-- Lines 417-427 of src/gutil_log.c. `own` is the level of `check` unless it's `INHERIT`. -/
def decide (env : Env) (s : State) (module : Option Nat) (own : Option Int) (level : Int) (msg : Str) : M (List Out) := do
  let d ← s.get 0
  if passes level (own.getD d.level) then emit env s module level msg else .ok []

/-- `gutil_logv_r`, src/gutil_log.c:404-430. -/
def logvR (env : Env) (s : State) (module : Option Nat) (level : Int) (msg : Str) : (fuel : Nat) → (check : Option Nat) → M (List Out)
  | 0, _ => .error .diverge
  | _ + 1, none => decide env s module none level msg
  | fuel + 1, some i => do
    let m ← s.get i
    if m.disable then .ok []
    else
      match m.parent with
      | some p =>
        if m.level = INHERIT then logvR env s module level msg fuel (some p)
        else decide env s module (some m.level) level msg
      | none => decide env s module (if m.level = INHERIT then none else some m.level) level msg

/-- `gutil_logv`, src/gutil_log.c:432-442, and `gutil_log`, lines 444-456. The recursion is not
deeper than the number of modules, unless a module is its own ancestor. -/
def logv (env : Env) (s : State) (module : Option Nat) (level : Int) (msg : Str) : M (List Out) :=
  if level ≠ NONE ∧ s.func2.isSome then logvR env s module level msg (s.modules.length + 1) module else .ok []

/-- `gutil_log_enabled_r`, src/gutil_log.c:472-488 -/
def enabledR (s : State) (level : Int) : (fuel : Nat) → (module : Nat) → M Bool
  | 0, _ => .error .diverge
  | fuel + 1, i => do
    let m ← s.get i
    if m.disable then .ok false
    else
      match m.parent with
      | some p =>
        if m.level = INHERIT then enabledR s level fuel p
        else .ok (passes level m.level)
      | none => do
        let d ← s.get 0
        .ok (passes level (if m.level = INHERIT then d.level else m.level))

/-- `gutil_log_enabled`, src/gutil_log.c:490-500 -/
def enabled (s : State) (module : Option Nat) (level : Int) : M Bool :=
  if level ≠ NONE ∧ s.func2.isSome then enabledR s level (s.modules.length + 1) (module.getD 0) else .ok false

/-- `gutil_log_assert`, src/gutil_log.c:458-467; `text` is "Assert %s failed at %s:%d". -/
def logAssert (env : Env) (s : State) (module : Option Nat) (level : Int) (text : Str) : M (List Out) :=
  logv env s module level text

/-- An upper case hexadecimal digit, as printed by `%X`. (C library) See src/gutil_log.c:519. -/
def hexDigit (n : Nat) : Byte := if n < 10 then BitVec.ofNat 8 (0x30 + n) else BitVec.ofNat 8 (0x41 + (n - 10))

/-- `%X`, in no more than `fuel` digits. (C library) See src/gutil_log.c:519. -/
def printDigits : (fuel : Nat) → Nat → Str
  | 0, _ => []
  | fuel + 1, n => if n < 16 then [hexDigit n] else printDigits fuel (n / 16) ++ [hexDigit (n % 16)]

/-- `%X`. (C library) See src/gutil_log.c:519. -/
def printX (n : Nat) : Str := printDigits (n + 1) n

/-- `%04X`. (C library) See src/gutil_log.c:519. -/
def print04X (n : Nat) : Str := List.replicate (4 - (printX n).length) 0x30 ++ printX n

/-- Parameters of `gutil_hexdump` which depend on the platform and locale. src/gutil_misc.c:204-244. -/
structure Ctype where
  mode : Mode
  signed : Bool
  printable : Byte → Bool

/-- One iteration in `gutil_log_dump2`, src/gutil_log.c:516-519. Sizes are converted to `guint`
in the call of `gutil_hexdump`. `%s` prints the line up to the terminating zero. Returns the message
and the number of bytes consumed. -/
def dumpLine (ct : Ctype) (pfx : Str) (data : List Byte) (off size : Nat) : M (Str × Nat) := do
  let (line, consumed) ← Misc.hexdump ct.mode ct.signed ct.printable Misc.bufSize (data.drop off) (size % 2 ^ 32)
  .ok (pfx ++ print04X off ++ lit ": " ++ line.takeWhile (· ≠ 0), consumed)

/-- The loop in `gutil_log_dump2`, src/gutil_log.c:515-522; `off` is a `guint`. -/
def dumpLoop (env : Env) (ct : Ctype) (s : State) (module : Option Nat) (level : Int) (pfx : Str) (data : List Byte) :
    (fuel : Nat) → (off size : Nat) → M (List Out)
  | 0, _, _ => .error .diverge
  | fuel + 1, off, size =>
    if size > 0 then do
      let (msg, consumed) ← dumpLine ct pfx data off size
      let out ← logv env s module level msg
      let rest ← dumpLoop env ct s module level pfx data fuel ((off + consumed) % 2 ^ 32) (size - consumed)
      .ok (out ++ rest)
    else .ok []

/-- `gutil_log_dump`, src/gutil_log.c:525-536, with `gutil_log_dump2`, lines 502-523. The loop
may be infinite, that's why there's `fuel`. -/
def dump (fuel : Nat) (env : Env) (ct : Ctype) (s : State) (module : Option Nat) (level : Int) (pfx : Option Str) (data : List Byte)
    (size : Nat) : M (List Out) := do
  let e ← enabled s module level
  if e then dumpLoop env ct s module level (pfx.getD []) data fuel 0 size else .ok []

/-- `gutil_log_dump_bytes`, src/gutil_log.c:538-551 -/
def dumpBytes (fuel : Nat) (env : Env) (ct : Ctype) (s : State) (module : Option Nat) (level : Int) (pfx : Option Str)
    (bytes : Option (List Byte)) : M (List Out) :=
  match bytes with
  | some b => dump fuel env ct s module level pfx b b.length
  | none => .ok []

/-- `g_strcmp0(f, gutil_log_ftime_custom)`, src/gutil_log.c:567 -/
def cmpCustom (s : State) (f : Str) : M Int :=
  match s.custom with
  | some a => do
    let c ← str s.heap a
    .ok (cmpBytes f c)
  | none => .ok 1

/-- `gutil_log_set_timestamp_format`, src/gutil_log.c:562-579, and `gutil_log_deinit`, lines
764-770, which calls it with `NULL`. -/
def setTimestampFormat (s : State) (f : Option Str) : M State :=
  match f with
  | some f => do
    let c ← cmpCustom s f
    if c ≠ 0 then do
      let a := s.heap.length
      let heap ← gfree (s.heap ++ [some f]) s.custom
      .ok { s with ftime := .at a, custom := some a, heap := heap }
    else .ok s
  | none =>
    match s.custom with
    | some a => do
      let heap ← gfree s.heap (some a)
      .ok { s with ftime := .default, custom := none, heap := heap }
    | none => .ok s

/-- `gutil_log_levels[].name`, src/gutil_log.c:91-96 -/
def levelNames : List Str := [
  [0x6e, 0x6f, 0x6e, 0x65],                       -- none
  [0x65, 0x72, 0x72, 0x6f, 0x72],                 -- error
  [0x77, 0x61, 0x72, 0x6e, 0x69, 0x6e, 0x67],     -- warning
  [0x69, 0x6e, 0x66, 0x6f],                       -- info
  [0x64, 0x65, 0x62, 0x75, 0x67],                 -- debug
  [0x76, 0x65, 0x72, 0x62, 0x6f, 0x73, 0x65]]     -- verbose

/-- `strncmp(s, t, n) == 0`. (C library) See src/gutil_log.c:602. -/
def strnEq : (n : Nat) → Str → Str → Bool
  | 0, _, _ => true
  | _ + 1, [], [] => true
  | n + 1, a :: s, b :: t => a == b && strnEq n s t
  | _ + 1, _, _ => false

/-- `strchr(valid_numbers, str[0])`, src/gutil_log.c:592-599 -/
def number (c : Byte) : Option Nat := [0x30, 0x31, 0x32, 0x33, 0x34, 0x35].findIdx? (· == c)

/-- The loop in `gutil_log_parse_level`, src/gutil_log.c:601-605 -/
def findLevel (t : Str) : Option Nat := levelNames.findIdx? (fun n => strnEq t.length n t)

/-- `gutil_log_parse_level`, src/gutil_log.c:582-612, without the error. `none` is -1. -/
def parseLevel (t : Str) : Option Nat :=
  match t with
  | [] => none
  | [c] =>
    match number c with
    | some i => some i
    | none => findLevel t
  | _ => findLevel t

/-- `g_ascii_tolower`. (GLib) See src/gutil_log.c:634. -/
def lower (c : Byte) : Byte := if 0x41 ≤ c.toNat ∧ c.toNat ≤ 0x5a then c + 0x20 else c

/-- `g_ascii_strncasecmp(s, t, n) == 0`. (GLib) See src/gutil_log.c:634. -/
def strncaseEq : (n : Nat) → Str → Str → Bool
  | 0, _, _ => true
  | _ + 1, [], [] => true
  | n + 1, a :: s, b :: t => lower a == lower b && strncaseEq n s t
  | _ + 1, _, _ => false

/-- The condition at src/gutil_log.c:634-635. `g_ascii_strncasecmp` complains about `NULL` and
returns 0, `strlen` doesn't accept that. -/
def nameMatches (name : Option Str) (opt : Str) (namelen : Nat) : M Bool :=
  match name with
  | some n => .ok (strncaseEq namelen n opt && n.length == namelen)
  | none => .error .nullDeref

/-- The loop in `gutil_log_parse_option`, src/gutil_log.c:633-639: the module found. -/
def findModule (s : State) (opt : Str) (namelen : Nat) : (modules : List Nat) → M (Option Nat)
  | [] => .ok none
  | i :: rest => do
    let m ← s.get i
    let b ← nameMatches m.name opt namelen
    if b then .ok (some i) else findModule s opt namelen rest

/-- `modules[i]->level = level`. src/gutil_log.c:636. -/
def State.setLevel (s : State) (i : Nat) (level : Int) : State :=
  { s with modules := s.modules.modify i (fun m => { m with level := level }) }

/-- `gutil_log_parse_option`, src/gutil_log.c:618-653. `modules` are the first `count` ones.
The last component of the result is the error. Names of modules in the option are shorter
than 2 GiB (`%.*s` with a larger length would show more). -/
def parseOption (s : State) (opt : Str) (modules : List Nat) : M (State × Bool × Option Str) :=
  match opt.findIdx? (· == 0x3a) with
  | some sep =>
    match parseLevel (opt.drop (sep + 1)) with
    | some l => do
      let r ← findModule s opt sep modules
      match r with
      | some i => .ok (s.setLevel i l, true, none)
      | none => .ok (s, false, some (lit "Unknown log module '" ++ opt.take sep ++ lit "'"))
    | none => .ok (s, false, some (lit "Invalid log level '" ++ opt.drop (sep + 1) ++ lit "'"))
  | none =>
    match parseLevel opt with
    | some l => .ok (s.setLevel 0 l, true, none)
    | none => .ok (s, false, some (lit "Invalid log level '" ++ opt ++ lit "'"))

/-- `g_ascii_strcasecmp(s, t) == 0`. (GLib) See src/gutil_log.c:690-716. -/
def strcaseEq : Str → Str → Bool
  | [], [] => true
  | a :: s, b :: t => lower a == lower b && strcaseEq s t
  | _, _ => false

/-- `GLOG_TYPE_xxx`, src/gutil_log.c:99-107 -/
def typeName : Proc → Str
  | .stdout => [0x73, 0x74, 0x64, 0x6f, 0x75, 0x74]
  | .stderr => [0x73, 0x74, 0x64, 0x65, 0x72, 0x72]
  | .syslog => [0x73, 0x79, 0x73, 0x6c, 0x6f, 0x67]
  | .glib => [0x67, 0x6c, 0x69, 0x62]
  | .other _ => [0x63, 0x75, 0x73, 0x74, 0x6f, 0x6d]

/-- `if (default_name) gutil_log_default.name = default_name`, src/gutil_log.c:695-697, 706-708 -/
def State.setName (s : State) (name : Option Str) : State :=
  match name with
  | some n => { s with modules := s.modules.modify 0 (fun m => { m with name := some n }) }
  | none => s

/-- Lines 701-703 of src/gutil_log.c -/
def State.close (s : State) : State :=
  if s.func = some .syslog then { s with opened := false } else s

/-- `gutil_log_set_type`, src/gutil_log.c:684-722 -/
def setType (s : State) (type : Str) (name : Option Str) : State × Bool :=
  if strcaseEq type (typeName .syslog) then
    ({ s.setName name with func := some .syslog, opened := if s.func ≠ some .syslog then true else s.opened }, true)
  else
    let s := s.close.setName name
    if strcaseEq type (typeName .stdout) then ({ s with func := some .stdout }, true)
    else if strcaseEq type (typeName .stderr) then ({ s with func := some .stderr }, true)
    else if strcaseEq type (typeName .glib) then ({ s with func := some .glib }, true)
    else (s, false)

/-- `gutil_log_get_type`, src/gutil_log.c:724-736 -/
def getType (s : State) : Str :=
  match s.func with
  | some p => typeName p
  | none => typeName (.other 0)

/-- One variable of the environment, src/gutil_log.c:747-761 -/
def intVar (var : Option Str) (min : Int) : Option Int :=
  match Parse.parseInt var 0 with
  | some v => if v ≥ min then some v else none
  | none => none

/-- Lines 747-751 of src/gutil_log.c -/
def initLevel (s : State) (var : Option Str) : State :=
  match intVar var INHERIT with
  | some v => s.setLevel 0 v
  | none => s

/-- Lines 753-756 and 758-761 of src/gutil_log.c -/
def initFlag (flag : Bool) (var : Option Str) : Bool :=
  match intVar var 0 with
  | some v => Decidable.decide (v > 0)
  | none => flag

/-- `gutil_log_init`, src/gutil_log.c:740-762. Its debug messages are in `Model/LogMacros.lean`. -/
def init (s : State) (level timestamp tid : Option Str) : State :=
  { initLevel s level with timestamp := initFlag s.timestamp timestamp, tid := initFlag s.tid tid }

/-- `gutil_log_levels[].description`, src/gutil_log.c:91-96 -/
def levelDescriptions : List Str := [
  lit "Disable log output", lit "Errors only", lit "From warning level to errors",
  lit "From information level to errors", lit "From debug messages to errors",
  lit "From verbose trace messages to errors"]

/-- `%-8s`. (C library) See src/gutil_log.c:670. -/
def pad8 (t : Str) : Str := t ++ List.replicate (8 - t.length) 0x20

/-- One iteration of the first loop in `gutil_log_description`, src/gutil_log.c:669-673; `dflt` is
`GLOG_LEVEL_DEFAULT`. -/
def describeLevel (dflt : Int) (i : Nat) : M Str := do
  let name ← rd levelNames i
  let desc ← rd levelDescriptions i
  .ok (lit "   " ++ [BitVec.ofNat 8 (0x30 + i)] ++ lit ", " ++ pad8 name ++ lit "    " ++ desc ++
    (if (i : Int) = dflt then lit " (default)" else []) ++ lit "\n")

/-- The first loop in `gutil_log_description`, src/gutil_log.c:668-674; `n` iterations remain -/
def describeLevels (dflt : Int) : (n i : Nat) → M Str
  | 0, _ => .ok []
  | n + 1, i => do
    let t ← describeLevel dflt i
    let rest ← describeLevels dflt n (i + 1)
    .ok (t ++ rest)

/-- The second loop in `gutil_log_description`, src/gutil_log.c:677-679; `NULL` is printed the way
glibc does that. -/
def describeModules (s : State) : List Nat → M Str
  | [] => .ok []
  | i :: t => do
    let m ← s.get i
    let rest ← describeModules s t
    .ok (lit "  " ++ m.name.getD (lit "(null)") ++ lit "\n" ++ rest)

/-- Lines 675-680 of src/gutil_log.c -/
def describeKnown (s : State) (modules : Option (List Nat)) : M Str :=
  match modules with
  | some l => do
    let t ← describeModules s l
    .ok (lit "\nLog Modules:\n" ++ t)
  | none => .ok []

/-- `gutil_log_description`, src/gutil_log.c:659-682 -/
def description (dflt : Int) (s : State) (modules : Option (List Nat)) : M Str := do
  let l ← describeLevels dflt 6 0
  let m ← describeKnown s modules
  .ok (lit "Log Levels:\n" ++ l ++ m)

end Verif.Log
