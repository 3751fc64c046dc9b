import Verif.Model.Log

/-!
# The unit tests of the project, run by the model: `/repo/test/test_log/test_log.c`

These are tests of the model and not properties of the code: they check that the hand translation agrees with what the authors of the code assert about it.
The custom log function number 1 is `test_log_fn`, number 2 of the other kind is `test_log_drop`. `strftime` replaces nothing, there are no `%` in the formats used.
-/

namespace Verif.Check.Log
open Verif.C Verif.Log

def check (b : Bool) : M Unit := if b then .ok () else .error .assertFail

def env : Env := ⟨id, lit "1"⟩
def ct : Ctype := ⟨.wrap, true, fun b => 0x20 ≤ b.toNat && b.toNat < 0x7f⟩

/-- `GLOG_MODULE_DEFINE2_(module, "test", gutil_log_default)`, include/gutil_log.h:195-197 -/
def module : Module := ⟨some (lit "test"), some 0, none, INHERIT, false, false⟩

/-- The state at the beginning, with the module of the test -/
def start (level : Int) : State := (initial INFO [module]).setLevel 0 level

/-- What `test_log_fn` adds to the buffer -/
def buf (out : List Out) : Str :=
  out.flatMap fun
    | .call 1 _ _ msg => msg ++ lit "\n"
    | _ => []

/-- What's printed to stdout -/
def printed (out : List Out) : Str :=
  out.flatMap fun
    | .stdio false text => text
    | _ => []

/-- `test_log_basic`, lines 64-119 -/
example : (do
    let s : State := { start ERR with func := some (.other 1) }
    let log (s : State) m l t := do
      let out ← logv env s m l (lit t)
      pure (buf out)
    let quiet (s : State) : M Unit := do
      check ((← log s none NONE "Debug!") = [])
      check ((← log s none DEBUG "Debug!") = [])
      check ((← log s (some 1) DEBUG "Debug!") = [])
      check (buf (← logAssert env s none WARN (lit "Assert Test! failed at test_log.c:1")) = [])
      check ((← log s (some 1) ERR "Err!") ≠ [])
    quiet s
    let s := { s with modules := s.modules.modify 1 fun m => { m with parent := none } }
    quiet s
    check ((← log s (some 1) ALWAYS "Always!") ≠ [])
    let d := { s with modules := s.modules.modify 1 fun m => { m with disable := true } }
    check ((← log d (some 1) ALWAYS "Always!") = [])
    let s := { s with func := none }
    check ((← logv env s none ALWAYS (lit "Always!")) = [])
    let s := { s with func2 := none }
    check ((← logv env s none ALWAYS (lit "Always!")) = [])) = .ok () := by decide +kernel

/-- `test_log_file`, lines 148-262 -/
example : (do
    let (s, ok) := setType (start WARN) (lit "stdout") none
    check (ok = true)
    check (s.func = some Proc.stdout)
    let named (s : State) (name : String) := { s with modules := s.modules.modify 0 fun m => { m with name := some (lit name) } }
    let prints (s : State) (l : Int) (msg want : String) : M Unit := do
      check (printed (← logv env s none l (lit msg)) = lit want)
    prints s WARN "Test" "WARNING: Test\n"
    prints s ERR "Test" "ERROR: Test\n"
    let s := named s ""
    prints s ALWAYS "Test" "Test\n"
    let s := named s "test"
    prints s ALWAYS "Test" "[test] Test\n"
    let s := { s with modules := s.modules.modify 0 fun m => { m with hideName := true } }
    prints s ALWAYS "Test" "Test\n"
    let s := { s with timestamp := true }
    let s ← setTimestampFormat s (some (lit "timestamp1 "))
    let s ← setTimestampFormat s (some (lit "timestamp1 "))
    prints s ALWAYS "test1" "timestamp1 test1\n"
    let s ← setTimestampFormat s (some (lit "timestamp2 "))
    prints s ALWAYS "test2" "timestamp2 test2\n"
    let s ← setTimestampFormat s (some [])
    prints s ALWAYS "test" "test\n"
    let s ← setTimestampFormat s none
    let s ← setTimestampFormat s none
    let s := { s with timestamp := false, modules := s.modules.modify 0 fun m => { m with proc := some (.other 2) } }
    check (printed (← logv env s (some 0) ALWAYS (lit "Test")) = [])) = .ok () := by decide +kernel

/-- `test_log_enabled`, lines 270-311 -/
example : (do
    let yes (s : State) (m : Option Nat) (l : Int) : M Unit := do
      let e ← enabled s m l
      check e
    let no (s : State) (m : Option Nat) (l : Int) : M Unit := do
      let e ← enabled s m l
      check (!e)
    let s := start NONE
    yes s none ALWAYS
    no s none ERR
    no s none NONE
    let s := start INFO
    yes s (some 0) ALWAYS
    yes s (some 0) INFO
    no { s with modules := s.modules.modify 0 fun m => { m with disable := true } } (some 0) INFO
    no s (some 0) DEBUG
    let s := start INHERIT
    no s (some 1) ERR
    yes s (some 1) ALWAYS
    let s := start INFO
    yes s (some 1) ALWAYS
    yes s (some 1) INFO
    no s (some 1) DEBUG
    let s := { start VERBOSE with func2 := none }
    no s none ALWAYS) = .ok () := by decide +kernel

/-- `test_log_misc`, lines 317-333 -/
example : (do
    let (s, ok) := setType (start INFO) (lit "stdout") (some (lit "test"))
    check (ok && s.func == some Proc.stdout && getType s == lit "stdout")
    let (s, ok) := setType s (lit "stderr") (some (lit "test"))
    check (ok && s.func == some Proc.stderr && getType s == lit "stderr")
    let (s, ok) := setType s (lit "whatever") (some (lit "test"))
    check (!ok)
    check (getType { s with func := none } == lit "custom")) = .ok () := by decide +kernel

def short : List Byte := [0x01, 0x02, 0x03, 0x04]
def long : List Byte := (List.range 16).map (fun i => BitVec.ofNat 8 (0x30 + i)) ++ [0]
def shortDump : Str := lit "  0000: 01 02 03 04                                         ....\n"
def longDump : Str :=
  lit "0000: 30 31 32 33 34 35 36 37  38 39 3a 3b 3c 3d 3e 3f    01234567 89:;<=>?\n" ++
  lit "0010: 00                                                  .\n"

/-- `test_log_dump`, lines 339-393 -/
example : (do
    let s : State := { start INFO with func := some (.other 1) }
    check (buf (← dumpBytes 10 env ct s (some 0) NONE (some (lit "  ")) none) = [])
    check (buf (← dump 10 env ct s (some 0) NONE (some (lit "  ")) short 4) = [])
    check (buf (← dump 10 env ct s (some 0) ALWAYS (some (lit "  ")) short 4) = shortDump)
    check (buf (← dumpBytes 10 env ct s (some 0) NONE (some (lit "  ")) (some short)) = [])
    check (buf (← dumpBytes 10 env ct s (some 0) ALWAYS (some (lit "  ")) (some short)) = shortDump)
    check (buf (← dump 10 env ct s (some 0) ALWAYS none long 17) = longDump)
    check (buf (← dumpBytes 10 env ct s (some 0) ALWAYS none (some long)) = longDump)) = .ok () := by decide +kernel

end Verif.Check.Log
