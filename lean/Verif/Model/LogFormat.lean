import Verif.Spec.LogFormat
import Verif.Model.Log

/-!
# The timestamp format which several threads use and change

There are no locks in src/gutil_log.c. Here `gutil_log_set_timestamp_format` accesses one variable (or the memory it points to) per step, and so does the part of
`gutil_log_stdio` which uses the format; steps of all threads are interleaved in any order. `Model/LogThreads.lean` has the rest of logging, where
`gutil_log_set_timestamp_format` is a single step.

Simplifications: reads and writes of a single variable are atomic and nothing is reordered (formally any such race is undefined in C11); `gutil_log_timestamp` is
always set; memory which has been freed isn't reused, using it is an error.
-/

namespace Verif.LogFormat
open Verif.C
open Verif.Log (Ftime)

/-- `gutil_log_ftime`, `gutil_log_ftime_custom` (src/gutil_log.c:66-67) and the memory allocated for formats -/
structure Mem where
  heap : Heap
  custom : Option Nat
  ftime : Ftime
  deriving DecidableEq, Repr

/-- Where the thread is, in src/gutil_log.c. `gutil_log_set_timestamp_format` with a format is going to:
`setRead`, `setCmp`: read `gutil_log_ftime_custom` and compare what it points to with the format, line 567;
`setOld`: read `gutil_log_ftime_custom` again, line 568;
`setDup`, `setCustom`, `setFtime`: copy the format, store the address to the first and to the second variable, line 571;
`setFree`: free the old one, line 572.
With `NULL`:
`clrTest`: compare `gutil_log_ftime_custom` with `NULL`, line 574;
`clrRead`, `clrFree`: read it and free what it points to, line 575;
`clrCustom`, `clrFtime`: lines 576 and 577.
`gutil_log_stdio`:
`rdPtr`, `rdFirst`: read `gutil_log_ftime` and the first character, line 176;
`rdAgain`, `rdFormat`: read `gutil_log_ftime` again, and what it points to, line 184. -/
inductive Pc
  | idle
  | setRead (f : Str)
  | setCmp (f : Str) (p : Option Nat)
  | setOld (f : Str)
  | setDup (f : Str) (old : Option Nat)
  | setCustom (a : Nat) (old : Option Nat)
  | setFtime (a : Nat) (old : Option Nat)
  | setFree (old : Option Nat)
  | clrTest
  | clrRead
  | clrFree (p : Option Nat)
  | clrCustom
  | clrFtime
  | rdPtr
  | rdFirst (p : Ftime)
  | rdAgain
  | rdFormat (p : Ftime)
  deriving DecidableEq, Repr

/-- What the pointer points to. `gutil_log_ftime`, src/gutil_log.c:176 and 184. -/
def chars (m : Mem) : Ftime → M Str
  | .default => .ok Log.ftimeDefault
  | .at a => str m.heap a

/-- The call returns. The end of src/gutil_log.c:562-579, or the use of the format at lines 176-189. -/
inductive End
  | set
  | logged (f : Option Str)
  deriving DecidableEq, Repr

/-- One step of a thread: src/gutil_log.c:175-189 and 562-579 -/
def next (m : Mem) : Pc → M (Mem × Pc × Option End)
  | .idle => .error .badArg
  | .setRead f => .ok (m, .setCmp f m.custom, none)
  | .setCmp f none => .ok (m, .setOld f, none)
  | .setCmp f (some a) => do
    let c ← str m.heap a
    if cmpBytes f c ≠ 0 then .ok (m, .setOld f, none) else .ok (m, .idle, some .set)
  | .setOld f => .ok (m, .setDup f m.custom, none)
  | .setDup f old => .ok ({ m with heap := m.heap ++ [some f] }, .setCustom m.heap.length old, none)
  | .setCustom a old => .ok ({ m with custom := some a }, .setFtime a old, none)
  | .setFtime a old => .ok ({ m with ftime := .at a }, .setFree old, none)
  | .setFree old => do
    let h ← gfree m.heap old
    .ok ({ m with heap := h }, .idle, some .set)
  | .clrTest => if m.custom.isSome then .ok (m, .clrRead, none) else .ok (m, .idle, some .set)
  | .clrRead => .ok (m, .clrFree m.custom, none)
  | .clrFree p => do
    let h ← gfree m.heap p
    .ok ({ m with heap := h }, .clrCustom, none)
  | .clrCustom => .ok ({ m with custom := none }, .clrFtime, none)
  | .clrFtime => .ok ({ m with ftime := .default }, .idle, some .set)
  | .rdPtr => .ok (m, .rdFirst m.ftime, none)
  | .rdFirst p => do
    let t ← chars m p
    if t ≠ [] then .ok (m, .rdAgain, none) else .ok (m, .idle, some (.logged none))
  | .rdAgain => .ok (m, .rdFormat m.ftime, none)
  | .rdFormat p => do
    let t ← chars m p
    .ok (m, .idle, some (.logged (some t)))

/-- The memory, where the threads are, and the history. src/gutil_log.c:66-67. -/
structure State where
  mem : Mem
  pc : Nat → Pc
  hist : List Event

/-- In the beginning the default format is used, src/gutil_log.c:65-67. -/
def init : State := ⟨⟨[], none, .default⟩, fun _ => .idle, []⟩

/-- The thread has moved. No code of the library, bookkeeping for the steps of src/gutil_log.c:175-189 and 562-579. -/
def State.goto (s : State) (t : Nat) (pc : Pc) : State := { s with pc := fun u => if u = t then pc else s.pc u }

/-- What may happen: a thread calls `gutil_log_set_timestamp_format`, or begins to log something, or goes on.
No code of its own, it goes to the model of src/gutil_log.c:175-189 and 562-579. -/
inductive Act
  | set (t : Nat) (f : Option Str)
  | log (t : Nat)
  | next (t : Nat)
  deriving DecidableEq, Repr

/-- The event which corresponds to the end of the call. No code of the library, bookkeeping for src/gutil_log.c:175-189 and 562-579. -/
def ended (t : Nat) : Option End → List Event
  | none => []
  | some .set => [.set t]
  | some (.logged f) => [.logged t f]

/-- One action. src/gutil_log.c:566 decides which part of `gutil_log_set_timestamp_format` it is. -/
def step (s : State) : Act → M State
  | .set t (some f) => .ok { s.goto t (.setRead f) with hist := s.hist ++ [.setting t (some f)] }
  | .set t none => .ok { s.goto t .clrTest with hist := s.hist ++ [.setting t none] }
  | .log t => .ok { s.goto t .rdPtr with hist := s.hist ++ [.logging t] }
  | .next t => do
    let (m, pc, e) ← next s.mem (s.pc t)
    .ok { s.goto t pc with mem := m, hist := s.hist ++ ended t e }

/-- A thread does one thing at a time. No code of the library, a rule for those who use src/gutil_log.c:175-189 and 562-579. -/
def Allowed (s : State) : Act → Prop
  | .set t _ | .log t => s.pc t = .idle
  | .next t => s.pc t ≠ .idle

/-- The additional rule: calls of `gutil_log_set_timestamp_format` don't overlap. No code of the library, a rule for those who use src/gutil_log.c:562-579. -/
def Serial (s : State) : Act → Prop
  | .set _ _ => ¬ Busy s.hist
  | _ => True

/-- The states which can be reached by following the rules, and those additional ones which are given by `P`.
No code of the library, a sequence of uses of src/gutil_log.c:175-189 and 562-579. -/
inductive Reach (P : State → Act → Prop) : State → Prop
  | init : Reach P init
  | step {s s' : State} {a : Act} : Reach P s → Allowed s a → P s a → step s a = .ok s' → Reach P s'

/-- Whatever the threads do. No code of the library, a sequence of uses of src/gutil_log.c:175-189 and 562-579. -/
abbrev AnyReach := Reach (fun _ _ => True)

end Verif.LogFormat
