import Verif.Model.MiscData
import Verif.Spec.MiscCb

/-!
# Model of `gutil_disconnect_handlers` and `gutil_source_clear` with notifications

`/repo/src/gutil_misc.c`, lines 45-61 and 96-108, cut where GLib may call the notification of the handler which has been
disconnected, or of the source which has been removed. `Verif.Model.MiscData` has the same functions without notifications.

Contracts: `g_signal_handler_disconnect` and `g_source_remove` are errors if there's no such handler or source, otherwise it doesn't
exist when the notification is called. Ids aren't reused.
-/

namespace Verif.MiscCb
open Verif.C

/-- Where a notification has been called from. src/gutil_misc.c:45-61 and 96-108. -/
inductive Frame
  /-- src/gutil_misc.c:56, `n` more iterations after this one -/
  | disconnect (i n : Nat)
  /-- src/gutil_misc.c:102 -/
  | clear
  deriving DecidableEq, Repr

/-- The variables of the program, existing handlers and sources, the calls in progress (the innermost one first) and what has been
disconnected and removed so far. `GSignal` handlers and sources belong to GLib, see src/gutil_misc.c:45-61 and 96-108. -/
structure State where
  ids : List Nat
  handlers : List Nat
  id : Nat
  sources : List Nat
  next : Nat
  stack : List Frame
  disconnected : List Nat
  removed : List Nat
  deriving DecidableEq, Repr

/-- The loop in `gutil_disconnect_handlers`, src/gutil_misc.c:54-59, up to the next notification; `n` iterations remain. -/
def loop (s : State) : (n i : Nat) → M State
  | 0, _ => .ok s
  | n + 1, i =>
    match s.ids[i]? with
    | some x =>
      if x ≠ 0 then
        if x ∈ s.handlers then
          .ok { s with handlers := s.handlers.erase x, disconnected := s.disconnected ++ [x], stack := .disconnect i n :: s.stack }
        else .error .badArg
      else loop s n (i + 1)
    | none => .error .oobRead

/-- `gutil_source_clear`, src/gutil_misc.c:96-108, up to the notification -/
def clear (s : State) : M State :=
  if s.id ≠ 0 then
    if s.id ∈ s.sources then
      .ok { s with sources := s.sources.erase s.id, removed := s.removed ++ [s.id], stack := .clear :: s.stack }
    else .error .badArg
  else .ok s

/-- After the notification: src/gutil_misc.c:57 and the rest of the loop, src/gutil_misc.c:103 -/
def ret (s : State) : M State :=
  match s.stack with
  | [] => .error .badArg
  | .disconnect i n :: rest => loop { s with ids := s.ids.set i 0, stack := rest } n (i + 1)
  | .clear :: rest => .ok { s with id := 0, stack := rest }

/-- What the program does. The first and the third one have no code behind them. src/gutil_misc.c:45-61 and 96-108. -/
def step (s : State) : Act → M State
  | .connect i => .ok { s with ids := s.ids.set i s.next, handlers := s.handlers ++ [s.next], next := s.next + 1 }
  | .disconnect count => loop s count 0
  | .add => .ok { s with id := s.next, sources := s.sources ++ [s.next], next := s.next + 1 }
  | .clear => clear s
  | .ret => ret s

/-- Nothing has been done yet. The variables of the program, before any of src/gutil_misc.c:45-61 and 96-108. -/
def new (size : Nat) : State :=
  { ids := List.replicate size 0, handlers := [], id := 0, sources := [], next := 1, stack := [], disconnected := [], removed := [] }

/-- The rules: `count` isn't larger than the array, and no id is overwritten while the handler or the source still exists.
No code of the library, a rule for those who use src/gutil_misc.c:45-61 and 96-108. -/
def Allowed (s : State) : Act → Prop
  | .connect i => i < s.ids.length ∧ ∀ x ∈ s.handlers, s.ids[i]? ≠ some x
  | .disconnect count => count ≤ s.ids.length
  | .add => s.id ∉ s.sources
  | .clear => True
  | .ret => s.stack ≠ []

instance (s : State) (a : Act) : Decidable (Allowed s a) := by
  cases a <;> unfold Allowed <;> infer_instance

/-- The ids which are being disconnected or removed. No code of the library, a rule for those who use src/gutil_misc.c:45-61 and 96-108. -/
def busy : List Frame → List Nat
  | [] => []
  | .disconnect i _ :: t => i :: busy t
  | .clear :: t => busy t

/-- Notifications don't use the ids that are being disconnected or removed.
No code of the library, a rule for those who use src/gutil_misc.c:45-61 and 96-108. -/
def Polite (s : State) : Act → Prop
  | .connect i => i ∉ busy s.stack
  | .disconnect count => ∀ i ∈ busy s.stack, count ≤ i
  | .add => Frame.clear ∉ s.stack
  | .clear => Frame.clear ∉ s.stack
  | .ret => True

instance (s : State) (a : Act) : Decidable (Polite s a) := by
  cases a <;> unfold Polite <;> infer_instance

/-- What can be reached by following the rules, and additional ones given by `P`.
No code of the library, a sequence of uses of src/gutil_misc.c:45-61 and 96-108. -/
inductive Reach (P : State → Act → Prop) : State → Prop
  | new {size : Nat} : Reach P (new size)
  | step {s s' : State} {a : Act} : Reach P s → Allowed s a → P s a → step s a = .ok s' → Reach P s'

/-- A number of steps, if the rules are being followed. No code of the library, a sequence of uses of src/gutil_misc.c:45-61 and 96-108. -/
def exec (P : State → Act → Prop) [∀ s a, Decidable (P s a)] (s : State) : List Act → Option State
  | [] => some s
  | a :: t =>
    if Allowed s a ∧ P s a then
      match step s a with
      | .ok s => exec P s t
      | .error _ => none
    else none

end Verif.MiscCb
