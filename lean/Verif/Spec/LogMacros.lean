import Verif.Model.LogMacros
import Verif.Spec.Log

/-!
# What a program which uses the logging macros does

Only the types of the model (and what `gutil_log` does) are used here. The program is executed as it's written, all expressions are
evaluated exactly once and all messages and failed assertions are noted, together with the state of the program at that moment. It doesn't depend on how the program
has been compiled.
-/

namespace Verif.LogMacros.Spec
open Verif.C Verif.Log

/-- Something to be logged -/
inductive Note (σ : Type)
  | message (level : Int) (text : Str) (p : σ)
  /-- an assertion which has failed -/
  | failed (text : Str) (p : σ)

/-- What the comparison means -/
def Holds : Rel → Int → Int → Prop
  | .eq, x, y => x = y
  | .ne, x, y => x ≠ y
  | .ge, x, y => y ≤ x
  | .gt, x, y => y < x
  | .le, x, y => x ≤ y
  | .lt, x, y => x < y

instance (r : Rel) (x y : Int) : Decidable (Holds r x y) := by cases r <;> unfold Holds <;> infer_instance

/-- What a statement does, and what's there to be logged -/
def step {σ : Type} (p : σ) : Stmt σ → M (List (Note σ) × σ)
  | .other f => (f p).map fun p => ([], p)
  | .message l a => (a p).map fun (t, p) => ([.message l t p], p)
  | .message_ f l a => (a p).map fun (t, p) => ([.message l (f ++ Verif.Log.Spec.ascii "() " ++ t) p], p)
  | .assert t e => (e p).map fun (v, p) => (if v then [] else [.failed t p], p)
  | .verify t e => (e p).map fun (v, p) => (if v then [] else [.failed t p], p)
  | .verifyFalse t e => (e p).map fun (v, p) => (if v then [.failed t p] else [], p)
  | .verifyRel t r e v =>
    match e p with
    | .error u => .error u
    | .ok (x, p) => (v p).map fun (y, p) =>
      (if Holds r x y then [] else [.failed t p], p)

/-- What a program does -/
def notes {σ : Type} : List (Stmt σ) → σ → M (List (Note σ) × σ)
  | [], p => .ok ([], p)
  | s :: t, p =>
    match step p s with
    | .error u => .error u
    | .ok (n, p) => (notes t p).map fun (ns, p) => (n ++ ns, p)

/-- Is this going to be logged by a program which is compiled with `GLOG_LEVEL_MAX` being `max` and `GLOG_LEVEL_ASSERT` being `assert`? At which level, and what? -/
def Note.selected {σ : Type} (max assert : Int) : Note σ → Option (Int × Str × σ)
  | .message l t p => if l ≤ max then some (l, t, p) else none
  | .failed t p => if assert ≤ max then some (assert, t, p) else none

/-- All these messages are passed to `log`, one after another. -/
def logEach {α : Type} (log : α → M (List Out)) : List α → M (List Out)
  | [] => .ok []
  | x :: t =>
    match log x with
    | .error u => .error u
    | .ok o => (logEach log t).map (o ++ ·)

/-- The expression has no side effects and nothing goes wrong. -/
def Pure {σ α : Type} (e : Expr σ α) : Prop := ∀ p, ∃ v, e p = .ok (v, p)

/-- Expressions which may be left out have no side effects: those are arguments of messages and assertions, and the value which
something is being compared to. And that value doesn't depend on which of the two is computed first. -/
def Harmless {σ : Type} : Stmt σ → Prop
  | .message _ a => Pure a
  | .message_ _ _ a => Pure a
  | .assert _ e => Pure e
  | .verifyRel _ _ e v => Pure v ∧ ∀ p x q, e p = .ok (x, q) → (v p).map (·.1) = (v q).map (·.1)
  | _ => True

end Verif.LogMacros.Spec
