import Verif.Spec.LogMacros
import Verif.Props.Log

/-!
# C122, C123: the logging macros
-/

namespace Verif.LogMacros
open Verif.C Verif.Log Spec

theorem logEach_append {α : Type} (log : α → M (List Out)) (a b : List α) :
    logEach log (a ++ b) = (do let o ← logEach log a; let os ← logEach log b; .ok (o ++ os)) := by
  induction a with
  | nil =>
    show logEach log b = (do let o ← (.ok [] : M (List Out)); let os ← logEach log b; .ok (o ++ os))
    rw [ok_bind]
    cases logEach log b <;> rfl
  | cons x t ih =>
    simp only [logEach, List.cons_append]
    cases log x with
    | error u => rfl
    | ok o =>
      dsimp only
      rw [ih]
      cases logEach log t with
      | error u => rfl
      | ok o1 =>
        cases logEach log b with
        | error u => rfl
        | ok o2 =>
          show Except.ok (o ++ (o1 ++ o2)) = Except.ok (o ++ o1 ++ o2)
          rw [List.append_assoc]

/-- What's passed to `gutil_log`, one after another -/
def outputs {σ : Type} (env : Env) (cfg : σ → Log.State) (b : Build) (ns : List (Note σ)) : M (List Out) :=
  logEach (fun (x : Int × Str × σ) => logv env (cfg x.2.2) b.module x.1 x.2.1) (ns.filterMap (Note.selected b.levelMax b.levelAssert))

theorem outputs_append {σ : Type} (env : Env) (cfg : σ → Log.State) (b : Build) (n ns : List (Note σ)) :
    outputs env cfg b (n ++ ns) = (do let o ← outputs env cfg b n; let os ← outputs env cfg b ns; .ok (o ++ os)) := by
  unfold outputs
  rw [List.filterMap_append, logEach_append]

theorem out_nil {σ : Type} (env : Env) (cfg : σ → Log.State) (b : Build) : outputs env cfg b [] = .ok [] := rfl

theorem out_one {σ : Type} (env : Env) (cfg : σ → Log.State) (b : Build) (l : Int) (t : Str) (p : σ) :
    outputs env cfg b [.message l t p] = if l ≤ b.levelMax then logv env (cfg p) b.module l t else .ok [] := by
  by_cases h : l ≤ b.levelMax
  · simp only [outputs, List.filterMap, Note.selected, if_pos h, logEach]
    cases logv env (cfg p) b.module l t with
    | error u => rfl
    | ok o => show Except.ok (o ++ []) = _; rw [List.append_nil]
  · simp only [outputs, List.filterMap, Note.selected, if_neg h, logEach]

theorem out_failed {σ : Type} (env : Env) (cfg : σ → Log.State) (b : Build) (t : Str) (p : σ) :
    outputs env cfg b [.failed t p] = if b.levelAssert ≤ b.levelMax then logv env (cfg p) b.module b.levelAssert t else .ok [] := by
  by_cases h : b.levelAssert ≤ b.levelMax
  · simp only [outputs, List.filterMap, Note.selected, if_pos h, logEach]
    cases logv env (cfg p) b.module b.levelAssert t with
    | error u => rfl
    | ok o => show Except.ok (o ++ []) = _; rw [List.append_nil]
  · simp only [outputs, List.filterMap, Note.selected, if_neg h, logEach]

/-- What an assertion does when it's there -/
theorem gassert_on {σ : Type} (env : Env) (cfg : σ → Log.State) (b : Build) (text : Str) (e : Expr σ Bool) (p p' : σ) (v : Bool)
    (h : b.levelAssert ≤ b.levelMax) (he : e p = .ok (v, p')) :
    gassert env cfg b text e p = (outputs env cfg b (if v then [] else [.failed text p'])).map (·, p') := by
  unfold gassert
  rw [if_pos (show b.levelMax ≥ b.levelAssert from h), he, ok_bind]
  cases v with
  | true => rfl
  | false =>
    simp only [Bool.false_eq_true, if_false]
    rw [out_failed, if_pos h]
    unfold logAssert
    cases logv env (cfg p') b.module b.levelAssert text <;> rfl

theorem out_off {σ : Type} (env : Env) (cfg : σ → Log.State) (b : Build) (c : Prop) [Decidable c] (t : Str) (p : σ) (h : ¬ b.levelAssert ≤ b.levelMax) :
    outputs env cfg b (if c then [] else [.failed t p]) = .ok [] ∧ outputs env cfg b (if c then [.failed t p] else []) = .ok [] := by
  have := out_failed env cfg b t p
  rw [if_neg h] at this
  constructor <;> split <;> first | exact this | rfl

theorem exec_notes {σ : Type} (env : Env) (cfg : σ → Log.State) (b : Build) (rf : Bool) (s : Stmt σ) (hs : Harmless s) (p p' : σ) (ns : List (Note σ))
    (h : Spec.step p s = .ok (ns, p')) : exec env cfg b rf p s = (outputs env cfg b ns).map (·, p') := by
  cases s with
  | other f =>
    simp only [Spec.step] at h
    simp only [exec]
    cases hf : f p with
    | error u => rw [hf] at h; cases h
    | ok q => rw [hf] at h; cases h; rfl
  | message l a =>
    obtain ⟨t, ha⟩ := hs p
    simp only [Spec.step, ha] at h
    cases h
    simp only [exec, message]
    rw [out_one]
    by_cases hl : l ≤ b.levelMax
    · rw [if_pos (show b.levelMax ≥ l from hl), if_pos hl, ha, ok_bind]
      dsimp only
      cases logv env (cfg p) b.module l t <;> rfl
    · rw [if_neg (show ¬ b.levelMax ≥ l from hl), if_neg hl]
      rfl
  | message_ f l a =>
    obtain ⟨t, ha⟩ := hs p
    simp only [Spec.step, ha] at h
    cases h
    simp only [exec, message_]
    rw [out_one]
    by_cases hl : l ≤ b.levelMax
    · rw [if_pos (show b.levelMax ≥ l from hl), if_pos hl, ha, ok_bind]
      dsimp only
      rw [show Verif.Log.Spec.ascii "() " = lit "() " from rfl]
      cases logv env (cfg p) b.module l (f ++ lit "() " ++ t) <;> rfl
    · rw [if_neg (show ¬ b.levelMax ≥ l from hl), if_neg hl]
      rfl
  | assert t e =>
    obtain ⟨v, he⟩ := hs p
    simp only [Spec.step, he] at h
    cases h
    simp only [exec]
    by_cases hl : b.levelAssert ≤ b.levelMax
    · exact gassert_on env cfg b t e p p v hl he
    · rw [(out_off env cfg b _ t p hl).1]
      unfold gassert
      rw [if_neg hl]
      rfl
  | verify t e =>
    simp only [Spec.step] at h
    cases he : e p with
    | error u => rw [he] at h; cases h
    | ok x =>
      obtain ⟨v, q⟩ := x
      rw [he] at h
      cases h
      simp only [exec, verify]
      by_cases hl : b.levelAssert ≤ b.levelMax
      · rw [if_pos hl]
        exact gassert_on env cfg b t e p q v hl he
      · rw [(out_off env cfg b _ t q hl).1, if_neg hl, he]
        rfl
  | verifyFalse t e =>
    simp only [Spec.step] at h
    cases he : e p with
    | error u => rw [he] at h; cases h
    | ok x =>
      obtain ⟨v, q⟩ := x
      rw [he] at h
      cases h
      simp only [exec, verifyFalse]
      by_cases hl : b.levelAssert ≤ b.levelMax
      · rw [if_pos hl, gassert_on env cfg b t (negate e) p q (!v) hl (by unfold negate; rw [he]; rfl)]
        cases v <;> rfl
      · rw [(out_off env cfg b _ t q hl).2, if_neg hl, he]
        rfl
  | verifyRel t r e v =>
    simp only [Spec.step] at h
    cases he : e p with
    | error u => rw [he] at h; cases h
    | ok x =>
      obtain ⟨x, q⟩ := x
      obtain ⟨y, hy⟩ := hs.1 q
      obtain ⟨y', hy'⟩ := hs.1 p
      have heq := hs.2 p x q he
      rw [hy, hy'] at heq
      cases heq
      rw [he] at h
      simp only [hy] at h
      cases h
      simp only [exec, verifyRel]
      have hr : r.holds x y = Decidable.decide (Holds r x y) := by
        cases r <;> simp only [Rel.holds, Holds, ge_iff_le, gt_iff_lt] <;> by_cases hxy : x = y <;> simp [hxy]
      by_cases hl : b.levelAssert ≤ b.levelMax
      · rw [if_pos hl, gassert_on env cfg b t (compare rf r e v) p q (r.holds x y) hl ?_]
        · rw [hr]
          by_cases hh : Holds r x y <;> simp [hh]
        · unfold compare
          cases rf with
          | true =>
            rw [if_pos rfl, hy', ok_bind]
            dsimp only
            rw [he]
            rfl
          | false =>
            rw [if_neg (by simp), he, ok_bind]
            dsimp only
            rw [hy]
            rfl
      · rw [(out_off env cfg b _ t q hl).1, if_neg hl, he]
        rfl

/-- **C122** For every program which uses the macros, any build of it does the same as any other one: the state is that of the program being executed as it's written, and
the messages which are passed to `gutil_log` are those whose level doesn't exceed `GLOG_LEVEL_MAX`, plus those about the assertions which have failed, unless
`GLOG_LEVEL_ASSERT` exceeds that. That's on condition that expressions which may be left out have no side effects. -/
theorem C122_builds_partial {σ : Type} (env : Env) (cfg : σ → Log.State) (b : Build) (rightFirst : Bool) (prog : List (Stmt σ)) (hs : ∀ s ∈ prog, Harmless s)
    (p p' : σ) (ns : List (Note σ)) (h : notes prog p = .ok (ns, p')) :
    run env cfg b rightFirst prog p =
      (logEach (fun (x : Int × Str × σ) => logv env (cfg x.2.2) b.module x.1 x.2.1) (ns.filterMap (Note.selected b.levelMax b.levelAssert))).map (·, p') := by
  show run env cfg b rightFirst prog p = (outputs env cfg b ns).map (·, p')
  induction prog generalizing p ns with
  | nil => cases h; rfl
  | cons s t ih =>
    simp only [notes] at h
    cases h1 : Spec.step p s with
    | error u => rw [h1] at h; cases h
    | ok x =>
      obtain ⟨n1, q⟩ := x
      rw [h1] at h
      dsimp only at h
      cases h2 : notes t q with
      | error u => rw [h2] at h; cases h
      | ok y =>
        obtain ⟨n2, q2⟩ := y
        rw [h2] at h
        cases h
        rw [outputs_append]
        simp only [run]
        rw [exec_notes env cfg b rightFirst s (hs s List.mem_cons_self) p q n1 h1]
        cases outputs env cfg b n1 with
        | error u => rfl
        | ok o =>
          show (do let (os, p) ← run env cfg b rightFirst t q; .ok (o ++ os, p)) = _
          rw [ih (fun s hs' => hs s (List.mem_cons_of_mem _ hs')) q n2 h2]
          cases outputs env cfg b n2 <;> rfl

/-- A counter is incremented by a comparison, and everything is logged. -/
def exampleProg : List (Stmt Int) := [
  .message 4 (fun p => .ok (lit "a", p)),
  .verifyRel (lit "b") .lt (fun p => .ok (p + 1, p + 1)) (fun p => .ok (0, p)),
  .assert (lit "c") (fun p => .ok (p == 2, p)),
  .message_ (lit "f") 1 (fun p => .ok (lit "d", p)),
  .verify (lit "e") (fun p => .ok (true, p + 1))]

/-- Everything is passed to a function of the program. -/
def exampleLog : Log.State := { initial 5 [] with func := some (.other 7) }

example : ∀ s ∈ exampleProg, Harmless s := by
  intro s hs
  simp only [exampleProg, List.mem_cons, List.not_mem_nil, or_false] at hs
  rcases hs with rfl | rfl | rfl | rfl | rfl
  · exact fun p => ⟨_, rfl⟩
  · exact ⟨fun p => ⟨_, rfl⟩, fun _ _ _ _ => rfl⟩
  · exact fun p => ⟨_, rfl⟩
  · exact fun p => ⟨_, rfl⟩
  · exact trivial

/-- A debug build and a release one -/
example : run ⟨fun _ => lit "now", lit "1"⟩ (fun _ => exampleLog) ⟨true, none, none, none⟩ false exampleProg 5 = .ok ([.call 7 none 4 (lit "a"), .call 7 none 1 (lit "b"),
    .call 7 none 1 (lit "c"), .call 7 none 1 (lit "f() d")], 7) := by decide +kernel

example : run ⟨fun _ => lit "now", lit "1"⟩ (fun _ => exampleLog) ⟨false, some 2, none, none⟩ true exampleProg 5 = .ok ([.call 7 none 1 (lit "f() d")], 7) := by decide +kernel

/-- **C122** Without that condition it's not true: in any build where messages of this level, or assertions, are left out, what the expression does is left out
too. In the other ones, it's not. -/
theorem C122_refuted (env : Env) (cfg : Int → Log.State) (hq : ∀ p, (cfg p).func2 = none) (b : Build) (rightFirst : Bool) (p level : Int) (text : Str) :
    run env cfg b rightFirst [.message level (fun p => .ok (text, p + 1))] p = .ok ([], if level ≤ b.levelMax then p + 1 else p) ∧
    run env cfg b rightFirst [.assert text (fun p => .ok (true, p + 1))] p = .ok ([], if b.levelAssert ≤ b.levelMax then p + 1 else p) ∧
    run env cfg b rightFirst [.verifyRel text .eq (fun p => .ok (0, p)) (fun p => .ok (0, p + 1))] p =
      .ok ([], if b.levelAssert ≤ b.levelMax then p + 1 else p) := by
  refine ⟨?_, ?_, ?_⟩
  · by_cases hl : level ≤ b.levelMax
    · simp [run, exec, message, hl, logv, hq, ok_bind]
    · simp [run, exec, message, hl, ok_bind]
  · by_cases hl : b.levelAssert ≤ b.levelMax
    · simp [run, exec, gassert, hl, ok_bind]
    · simp [run, exec, gassert, hl, ok_bind]
  · by_cases hl : b.levelAssert ≤ b.levelMax
    · cases rightFirst <;> simp [run, exec, verifyRel, gassert, compare, Rel.holds, hl, ok_bind]
    · simp [run, exec, verifyRel, hl, ok_bind]

/-- By default, assertions are there in debug builds, and they are not in the release ones, whatever `GLOG_LEVEL_MAX` is. -/
theorem C122_default (b : Build) (h : b.assert = none) : (b.debug = false → b.levelMax < b.levelAssert) ∧
    (b.debug = true → (b.levelAssert ≤ b.levelMax ↔ ∀ n, b.max = some n → 1 ≤ n)) := by
  refine ⟨fun hd => ?_, fun hd => ?_⟩
  · simp only [Build.levelAssert, h, hd]
    show b.levelMax < b.levelMax + 1
    omega
  · simp only [Build.levelAssert, Build.levelMax, h, hd, if_true, Option.getD_none]
    cases hm : b.max with
    | none => simp [ERR, VERBOSE]
    | some n => simp [ERR]

example : (⟨true, none, none, none⟩ : Build).levelAssert = 1 ∧ (⟨true, none, none, none⟩ : Build).levelMax = 5 ∧
    (⟨false, none, none, none⟩ : Build).levelAssert = 5 ∧ (⟨false, none, none, none⟩ : Build).levelMax = 4 := by decide

/-- **C122** Together with the levels which are set at run time (C59): the message gets to the handler exactly if its level exceeds neither what the program has been compiled
with nor the effective level of its module (and none of the modules is disabled). -/
theorem C122_both_levels {σ : Type} (env : Env) (cfg : σ → Log.State) (b : Build) (rightFirst : Bool) (i : Nat) (hi : b.module = some i) (p : σ) (level : Int) (text : Str)
    (rest : List Nat) (hc : Log.Spec.Chain (cfg p).modules (i :: rest)) (m : Module) (hm : (cfg p).modules[i]? = some m)
    (h : Proc2) (hh : (if m.proc.isSome then m.proc else (cfg p).func2) = some h) (hf : (cfg p).func2.isSome) :
    ∃ max, Log.Spec.levelOf (cfg p).modules (i :: rest) = some max ∧
      ∀ c : Bool, (c = true ↔ level ≤ b.levelMax ∧ Log.Spec.NoneDisabled (cfg p).modules (i :: rest) ∧ Log.Spec.Passes level max) →
        run env cfg b rightFirst [.message level (fun p => .ok (text, p))] p =
          (if c then callProc2 env (cfg p) h i level text else .ok []).map (·, p) := by
  obtain ⟨max, e, h1, h2, h3⟩ := C59_level (cfg p) i rest level hc hf
  obtain ⟨e', h4, h5⟩ := C58_module_partial env (cfg p) i rest level text hc m hm h hh
  rw [h2] at h4
  cases h4
  refine ⟨max, h1, fun c hcc => ?_⟩
  rw [← h3] at hcc
  rw [C122_builds_partial env cfg b rightFirst _ (by intro s hs; rw [List.mem_singleton] at hs; rw [hs]; exact fun p => ⟨_, rfl⟩) p p [.message level text p] rfl]
  show (outputs env cfg b [.message level text p]).map _ = _
  rw [out_one, hi, h5]
  by_cases hl : level ≤ b.levelMax
  · rw [if_pos hl]
    have : c = e := by
      cases c <;> cases e
      · rfl
      · exact absurd (hcc.2 ⟨hl, rfl⟩) (by simp)
      · exact absurd (hcc.1 rfl).2 (by simp)
      · rfl
    rw [this]
  · rw [if_neg hl]
    have : c = false := by
      cases c
      · rfl
      · exact absurd (hcc.1 rfl).1 hl
    rw [this]
    rfl

/-- The module has no level of its own and inherits "info" from the default one; "verbose" is the limit at compile time, and "warning" in the second case. -/
example : run ⟨fun _ => lit "now", lit "1"⟩ (fun _ => { initial 3 [⟨some (lit "m"), none, none, -1, false, false⟩] with func := some (.other 7) })
      ⟨true, none, none, some 1⟩ false ([5, 3, 1].map fun l => .message l (fun p => .ok (lit "a", p))) () =
        .ok ([.call 7 (some (lit "m")) 3 (lit "a"), .call 7 (some (lit "m")) 1 (lit "a")], ()) ∧
    run ⟨fun _ => lit "now", lit "1"⟩ (fun _ => { initial 3 [⟨some (lit "m"), none, none, -1, false, false⟩] with func := some (.other 7) })
      ⟨true, some 2, none, some 1⟩ false ([5, 3, 1].map fun l => .message l (fun p => .ok (lit "a", p))) () =
        .ok ([.call 7 (some (lit "m")) 1 (lit "a")], ()) := ⟨by decide +kernel, by decide +kernel⟩

end Verif.LogMacros
