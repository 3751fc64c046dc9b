import Verif.Model.LogPortable
import Verif.Spec.LogMacros

/-!
# What a program which uses the logging macros does if they are functions

Only the types of the model are used here. `gnu` is the same text being compiled by gcc, whose macros are in `Model/LogMacros.lean`.
-/

namespace Verif.LogPortable.Spec
open Verif.C Verif.Log Verif.LogMacros Verif.LogMacros.Spec

/-- The message -/
def text {σ : Type} (a : Expr σ Format) : Expr σ Str := fun p => (a p).map fun (f, p) => (f.text, p)

/-- The same statement as it's seen by gcc -/
def gnu {σ : Type} : Stmt σ → LogMacros.Stmt σ
  | .other f => .other f
  | .message l a => .message l (text a)
  | .message_ f l a => .message_ f l (text a)
  | .assert t e => .assert t e
  | .verify t e => .verify t e
  | .verifyFalse t e => .verifyFalse t e
  | .verifyRel t r e v => .verifyRel t r e v

/-- The same without names of functions -/
def nameless {σ : Type} : Stmt σ → Stmt σ
  | .message_ _ l a => .message l a
  | s => s

/-- What a statement does, and what's there to be logged: names of functions are ignored, and there are no messages without a format. Otherwise it's the same. -/
def step {σ : Type} (p : σ) : Stmt σ → M (List (Note σ) × σ)
  | .message l a => (a p).map fun (f, p) => (if f.empty then [] else [.message l f.text p], p)
  | .message_ _ l a => (a p).map fun (f, p) => (if f.empty then [] else [.message l f.text p], p)
  | s => LogMacros.Spec.step p (gnu s)

/-- What a program does -/
def notes {σ : Type} : List (Stmt σ) → σ → M (List (Note σ) × σ)
  | [], p => .ok ([], p)
  | s :: t, p =>
    match step p s with
    | .error u => .error u
    | .ok (n, p) => (notes t p).map fun (ns, p) => (n ++ ns, p)

/-- Assertions have no side effects, see `Verif.LogMacros.Spec.Harmless`. Messages may have any. -/
def Harmless {σ : Type} : Stmt σ → Prop
  | .message _ _ => True
  | .message_ _ _ _ => True
  | s => LogMacros.Spec.Harmless (gnu s)

/-- There's a format, and it has no side effects if it's a message which gcc would leave out. -/
def Portable {σ : Type} (max : Int) : Stmt σ → Prop
  | .message l a => (∀ p f q, a p = .ok (f, q) → f.empty = false) ∧ (max < l → Pure a)
  | .message_ _ l a => (∀ p f q, a p = .ok (f, q) → f.empty = false) ∧ (max < l → Pure a)
  | _ => True

end Verif.LogPortable.Spec
