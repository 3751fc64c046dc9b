import Verif.Spec.LogPortable
import Verif.Props.LogMacros

/-!
# C131: the logging macros for compilers other than gcc and clang
-/

namespace Verif.LogPortable
open Verif.C Verif.Log Verif.LogMacros Verif.LogMacros.Spec

theorem exec_step {σ : Type} (env : Env) (cfg : σ → Log.State) (b : Build) (rf : Bool) (s : Stmt σ) (hs : Spec.Harmless s) (p p' : σ) (ns : List (Note σ))
    (h : Spec.step p s = .ok (ns, p')) : exec env cfg b rf p s = (outputs env cfg b ns).map (·, p') := by
  have msg : ∀ (l : Int) (a : Expr σ Format), (a p).map (fun (f, p) => (if f.empty then [] else [Note.message l f.text p], p)) = .ok (ns, p') →
      message env cfg b l a p = (outputs env cfg b ns).map (·, p') := by
    intro l a h
    unfold message
    cases ha : a p with
    | error u => rw [ha] at h; cases h
    | ok x =>
      obtain ⟨f, q⟩ := x
      rw [ha] at h
      cases h
      rw [ok_bind]
      dsimp only
      by_cases hl : b.levelMax ≥ l
      · rw [if_pos hl]
        cases hf : f.empty with
        | true => rfl
        | false =>
          simp only [Bool.false_eq_true, if_false]
          rw [out_one, if_pos (show l ≤ b.levelMax from hl)]
          cases logv env (cfg p') b.module l f.text <;> rfl
      · rw [if_neg hl]
        cases hf : f.empty with
        | true => rfl
        | false =>
          simp only [Bool.false_eq_true, if_false]
          rw [out_one, if_neg (show ¬ l ≤ b.levelMax from hl)]
          rfl
  cases s with
  | message l a => exact msg l a h
  | message_ f l a => exact msg l a h
  | other f => exact exec_notes env cfg b rf (.other f) hs p p' ns h
  | assert t e => exact exec_notes env cfg b rf (.assert t e) hs p p' ns h
  | verify t e => exact exec_notes env cfg b rf (.verify t e) hs p p' ns h
  | verifyFalse t e => exact exec_notes env cfg b rf (.verifyFalse t e) hs p p' ns h
  | verifyRel t r e v => exact exec_notes env cfg b rf (.verifyRel t r e v) hs p p' ns h

/-- **C131** If it compiles, i.e. if `GLOG_LEVEL_MAX` is at least 4 (debug), then the program is executed as it's written, no matter what else it has been compiled with, and the
messages which are passed to `gutil_logv` are those whose level doesn't exceed `GLOG_LEVEL_MAX` (except for those which have no format), plus those about the assertions which
have failed, unless `GLOG_LEVEL_ASSERT` exceeds that. Arguments of messages may have any side effects. -/
theorem C131_builds_partial {σ : Type} (env : Env) (cfg : σ → Log.State) (b : Build) (hb : 4 ≤ b.levelMax) (rightFirst : Bool) (prog : List (Stmt σ)) (hs : ∀ s ∈ prog, Spec.Harmless s)
    (p p' : σ) (ns : List (Note σ)) (h : Spec.notes prog p = .ok (ns, p')) :
    program env cfg b rightFirst prog p =
      some ((logEach (fun (x : Int × Str × σ) => logv env (cfg x.2.2) b.module x.1 x.2.1) (ns.filterMap (Note.selected b.levelMax b.levelAssert))).map (·, p')) := by
  unfold program
  rw [if_pos (by simpa [compiles, DEBUG] using hb)]
  congr 1
  show run env cfg b rightFirst prog p = (outputs env cfg b ns).map (·, p')
  induction prog generalizing p ns with
  | nil => cases h; rfl
  | cons s t ih =>
    simp only [Spec.notes] at h
    cases h1 : Spec.step p s with
    | error u => rw [h1] at h; cases h
    | ok x =>
      obtain ⟨n1, q⟩ := x
      rw [h1] at h
      dsimp only at h
      cases h2 : Spec.notes t q with
      | error u => rw [h2] at h; cases h
      | ok y =>
        obtain ⟨n2, q2⟩ := y
        rw [h2] at h
        cases h
        rw [outputs_append]
        simp only [run]
        rw [exec_step env cfg b rightFirst s (hs s List.mem_cons_self) p q n1 h1]
        cases outputs env cfg b n1 with
        | error u => rfl
        | ok o =>
          show (do let (os, p) ← run env cfg b rightFirst t q; .ok (o ++ os, p)) = _
          rw [ih (fun s hs' => hs s (List.mem_cons_of_mem _ hs')) q n2 h2]
          cases outputs env cfg b n2 <;> rfl

/-- **C131** The same program, compiled with the same levels by gcc, does the same: its state and its messages are the same, except that there are no names of functions. That's on condition
that there are no messages without a format, and no side effects in the arguments of those messages which gcc leaves out. -/
theorem C131_same_partial {σ : Type} (env : Env) (cfg : σ → Log.State) (b : Build) (hb : 4 ≤ b.levelMax) (rightFirst : Bool) (prog : List (Stmt σ))
    (hs : ∀ s ∈ prog, Spec.Portable b.levelMax s) (p : σ) :
    program env cfg b rightFirst prog p = some (LogMacros.run env cfg b rightFirst (prog.map (Spec.gnu ∘ Spec.nameless)) p) := by
  have msg : ∀ (l : Int) (a : Expr σ Format) (p : σ), (∀ p f q, a p = .ok (f, q) → f.empty = false) → (b.levelMax < l → Pure a) →
      message env cfg b l a p = LogMacros.message env cfg b l (Spec.text a) p := by
    intro l a p h1 h2
    unfold message LogMacros.message
    by_cases hl : b.levelMax ≥ l
    · rw [if_pos hl]
      unfold Spec.text
      cases ha : a p with
      | error u => rfl
      | ok x =>
        obtain ⟨f, q⟩ := x
        rw [ok_bind]
        dsimp only
        rw [if_pos hl, h1 p f q ha]
        rfl
    · rw [if_neg hl]
      obtain ⟨f, ha⟩ := h2 (by omega) p
      rw [ha, ok_bind]
      dsimp only
      rw [if_neg hl]
  unfold program
  rw [if_pos (by simpa [compiles, DEBUG] using hb)]
  congr 1
  induction prog generalizing p with
  | nil => rfl
  | cons s t ih =>
    have e : exec env cfg b rightFirst p s = LogMacros.exec env cfg b rightFirst p (Spec.gnu (Spec.nameless s)) := by
      have := hs s List.mem_cons_self
      cases s with
      | message l a => exact msg l a p this.1 this.2
      | message_ f l a => exact msg l a p this.1 this.2
      | _ => rfl
    simp only [run, List.map_cons, LogMacros.run, Function.comp]
    rw [e]
    cases LogMacros.exec env cfg b rightFirst p (Spec.gnu (Spec.nameless s)) with
    | error u => rfl
    | ok x =>
      obtain ⟨o, q⟩ := x
      show (do let (os, p) ← run env cfg b rightFirst t q; .ok (o ++ os, p)) = _
      rw [ih (fun s hs' => hs s (List.mem_cons_of_mem _ hs')) q]
      rfl

/-- **C131**, the following is false: the header can be used whatever `GLOG_LEVEL_MAX` is. It doesn't compile if that's less than 4 (debug). Otherwise it does. -/
theorem C131_compile_refuted {σ : Type} (env : Env) (cfg : σ → Log.State) (b : Build) (rightFirst : Bool) (prog : List (Stmt σ)) (p : σ) :
    program env cfg b rightFirst prog p = none ↔ b.levelMax < 4 := by
  unfold program
  by_cases h : b.levelMax < 4
  · rw [if_neg (by simp [compiles, DEBUG]; omega)]
    simp [h]
  · rw [if_pos (by simp [compiles, DEBUG]; omega)]
    simp [h]

/-- Everything is passed to a function of the program. -/
def exampleCfg : Log.State := { initial 5 [] with func := some (.other 7) }

/-- **C131**, the following is false: it doesn't matter which compiler is used. Names of functions are missing, -/
theorem C131_names_refuted : program ⟨fun _ => lit "now", lit "1"⟩ (fun _ => exampleCfg) ⟨true, none, none, none⟩ false [.message_ (lit "f") 1 fun p => .ok (⟨false, lit "a"⟩, p)] () =
      some (.ok ([.call 7 none 1 (lit "a")], ())) ∧
    LogMacros.run ⟨fun _ => lit "now", lit "1"⟩ (fun _ => exampleCfg) ⟨true, none, none, none⟩ false ([.message_ (lit "f") 1 fun p => .ok (⟨false, lit "a"⟩, p)].map Spec.gnu) () =
      .ok ([.call 7 none 1 (lit "f() a")], ()) := ⟨by decide +kernel, by decide +kernel⟩

/-- **C131** ... side effects of the arguments are there even if there's no message (in this example, arguments of GVERBOSE in a release build), -/
theorem C131_args_refuted : program ⟨fun _ => lit "now", lit "1"⟩ (fun _ => exampleCfg) ⟨false, none, none, none⟩ false [.message 5 fun (p : Nat) => .ok (⟨false, lit "a"⟩, p + 1)] 0 =
      some (.ok ([], 1)) ∧
    LogMacros.run ⟨fun _ => lit "now", lit "1"⟩ (fun _ => exampleCfg) ⟨false, none, none, none⟩ false ([.message 5 fun (p : Nat) => .ok (⟨false, lit "a"⟩, p + 1)].map Spec.gnu) 0 =
      .ok ([], 0) := ⟨by decide +kernel, by decide +kernel⟩

/-- **C131** ... and messages with an empty format are missing. -/
theorem C131_empty_refuted : program ⟨fun _ => lit "now", lit "1"⟩ (fun _ => exampleCfg) ⟨true, none, none, none⟩ false [.message 1 fun p => .ok (⟨true, []⟩, p)] () =
      some (.ok ([], ())) ∧
    LogMacros.run ⟨fun _ => lit "now", lit "1"⟩ (fun _ => exampleCfg) ⟨true, none, none, none⟩ false ([.message 1 fun p => .ok (⟨true, []⟩, p)].map Spec.gnu) () =
      .ok ([.call 7 none 1 []], ()) := ⟨by decide +kernel, by decide +kernel⟩

/-! A program which meets all the conditions above: a message with side effects, an assertion which fails, one more message with the name of the function. -/

/-- The program -/
def exampleProg : List (Stmt Int) := [
  .message 4 (fun p => .ok (⟨false, lit "a"⟩, p + 1)),
  .assert (lit "c") (fun p => .ok (p == 2, p)),
  .message_ (lit "f") 5 (fun p => .ok (⟨false, lit "d"⟩, p)),
  .verify (lit "e") (fun p => .ok (true, p + 1))]

example : (∀ s ∈ exampleProg, Spec.Harmless s) ∧ (∀ s ∈ exampleProg, Spec.Portable 4 s) := by
  constructor
  · intro s hs
    simp only [exampleProg, List.mem_cons, List.not_mem_nil, or_false] at hs
    rcases hs with rfl | rfl | rfl | rfl
    · exact trivial
    · exact fun p => ⟨_, rfl⟩
    · exact trivial
    · exact trivial
  · intro s hs
    simp only [exampleProg, List.mem_cons, List.not_mem_nil, or_false] at hs
    rcases hs with rfl | rfl | rfl | rfl
    · exact ⟨fun p f q h => by cases h; rfl, fun h => by simp at h⟩
    · exact trivial
    · exact ⟨fun p f q h => by cases h; rfl, fun _ p => ⟨_, rfl⟩⟩
    · exact trivial

/-- Debug and release -/
example : program ⟨fun _ => lit "now", lit "1"⟩ (fun _ => exampleCfg) ⟨true, none, none, none⟩ false exampleProg 5 =
      some (.ok ([.call 7 none 4 (lit "a"), .call 7 none 1 (lit "c"), .call 7 none 5 (lit "d")], 7)) ∧
    program ⟨fun _ => lit "now", lit "1"⟩ (fun _ => exampleCfg) ⟨false, none, none, none⟩ false exampleProg 5 = some (.ok ([.call 7 none 4 (lit "a")], 7)) :=
  ⟨by decide +kernel, by decide +kernel⟩

end Verif.LogPortable
