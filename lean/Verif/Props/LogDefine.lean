import Verif.Props.LogExact
import Verif.Model.LogDefine

/-!
# C128: the log as it is before anything is configured
-/

namespace Verif.LogDefine
open Verif.C Verif.Log Verif.LogMacros
open Log.Spec (ascii Passes Chain levelOf NoneDisabled)

/-- What's printed to stdout -/
def line (name : Option Str) (level : Int) (msg : Str) : Str :=
  (match name with | some n => if n = [] then [] else ascii "[" ++ n ++ ascii "] " | none => []) ++
  (if level = 1 then ascii "ERROR: " else if level = 2 then ascii "WARNING: " else []) ++ msg ++ ascii "\n"

/-- The modules are those which were defined, after the default one. -/
theorem start_module (dflt : Int) (defs : List Def) (i : Nat) (m : Module) (h : (start dflt defs).modules[i]? = some m) :
    m.proc = none ∧ m.hideName = false ∧ m.disable = false ∧ (m.level = -1 ∨ i = 0 ∧ m = defaultModule dflt) := by
  cases i with
  | zero =>
    cases h
    exact ⟨rfl, rfl, rfl, .inr ⟨rfl, rfl⟩⟩
  | succ i =>
    have h : (defs.map Def.module)[i]? = some m := h
    rw [List.getElem?_map] at h
    cases hd : defs[i]? with
    | none => rw [hd] at h; cases h
    | some d =>
      rw [hd] at h
      cases h
      cases d <;> exact ⟨rfl, rfl, rfl, .inl rfl⟩

theorem printed (env : Env) (dflt : Int) (defs : List Def) (i : Nat) (m : Module) (hm : (start dflt defs).modules[i]? = some m) (level : Int) (msg : Str) (hs : msg.length < 2 ^ 31 - 1) :
    callProc2 env (start dflt defs) .default i level msg = .ok [.stdio false (line m.name level msg)] := by
  have h1 := start_module dflt defs i m hm
  rw [callProc2, defaultProc, get_ok _ _ _ hm, ok_bind]
  show callProc env (start dflt defs) .stdout (if m.hideName then none else m.name) level msg = _
  rw [if_neg (by rw [h1.2.1]; decide)]
  have h2 : stampIf env (start dflt defs) = .ok [] := by
    unfold stampIf
    rw [if_neg (by show ¬ (false = true); decide)]
  have h3 := C87_line_partial ⟨fun _ => [], env.tid⟩ (start dflt defs) false m.name level msg ftimeDefault rfl (show (0 : Nat) < 32 by decide) hs
  have h4 : callProc ⟨fun _ => [], env.tid⟩ (start dflt defs) .stdout m.name level msg = callProc env (start dflt defs) .stdout m.name level msg := rfl
  rw [if_neg (by decide), h4] at h3
  rw [h3]
  have e1 : (start dflt defs).tid = false := rfl
  have e2 : (start dflt defs).timestamp = false := rfl
  simp only [e1, e2, Bool.false_eq_true, if_false, false_and, List.nil_append]
  rfl

theorem level_start (dflt : Int) (defs : List Def) : ∀ (rest : List Nat) (i : Nat), Chain (start dflt defs).modules (i :: rest) → levelOf (start dflt defs).modules (i :: rest) = some dflt := by
  intro rest i hc
  have hlast : ∀ (l : List Nat), Chain (start dflt defs).modules l → ∃ j m, l.getLast? = some j ∧ (start dflt defs).modules[j]? = some m := by
    intro l
    induction l with
    | nil => intro h; exact h.elim
    | cons i l ih =>
      intro h
      cases l with
      | nil =>
        obtain ⟨m, hm, _⟩ := h
        exact ⟨i, m, rfl, hm⟩
      | cons j l =>
        obtain ⟨k, m, h1, h2⟩ := ih h.2
        exact ⟨k, m, by rw [List.getLast?_cons_cons]; exact h1, h2⟩
  obtain ⟨j, m, h1, h2⟩ := hlast _ hc
  unfold levelOf
  rw [h1]
  dsimp only
  rw [h2]
  dsimp only
  rcases (start_module dflt defs j m h2).2.2.2 with h3 | ⟨_, rfl⟩
  · rw [if_pos h3]
    rfl
  · split <;> rfl

theorem none_disabled (dflt : Int) (defs : List Def) (l : List Nat) : NoneDisabled (start dflt defs).modules l :=
  fun i _ m hm => (start_module dflt defs i m hm).2.2.1

/-- Any of the modules which were defined. They inherit their level from the parents, which don't form a cycle (`rank`); it's the default one, in the end. -/
theorem C128_module (env : Env) (dflt : Int) (defs : List Def) (rank : Nat → Nat)
    (hp : ∀ (i : Nat) n p, defs[i]? = some (.define2 n p) → p ≤ defs.length ∧ rank p < rank (i + 1))
    (i : Nat) (d : Def) (hd : defs[i]? = some d) (level : Int) (msg : Str) (hs : msg.length < 2 ^ 31 - 1) :
    let name := match d with | .define n => n | .define2 n _ => n
    (Passes level dflt → enabled (start dflt defs) (some (i + 1)) level = .ok true ∧
      logv env (start dflt defs) (some (i + 1)) level msg = .ok [.stdio false (line (some name) level msg)]) ∧
    (¬ Passes level dflt → enabled (start dflt defs) (some (i + 1)) level = .ok false ∧ logv env (start dflt defs) (some (i + 1)) level msg = .ok []) := by
  have hm : (start dflt defs).modules[i + 1]? = some d.module := by
    show (defs.map Def.module)[i]? = _
    rw [List.getElem?_map, hd]
    rfl
  have hlen : (start dflt defs).modules.length = defs.length + 1 := by simp [start, initial]
  obtain ⟨rest, hc, _⟩ := C59_chain (start dflt defs).modules rank (by
    intro j m p hj hmp
    cases j with
    | zero => cases hj; cases hmp
    | succ j =>
      have hj : (defs.map Def.module)[j]? = some m := hj
      rw [List.getElem?_map] at hj
      cases he : defs[j]? with
      | none => rw [he] at hj; cases hj
      | some e =>
        rw [he] at hj
        cases hj
        cases e with
        | define n => cases hmp
        | define2 n q =>
          cases hmp
          have := hp j n p he
          exact ⟨by rw [hlen]; omega, this.2⟩) (i + 1) (by
    have := (List.getElem?_eq_some_iff.mp hd).1
    rw [hlen]
    omega)
  obtain ⟨max, b, h1, h2, h3⟩ := C59_level (start dflt defs) (i + 1) rest level hc rfl
  rw [level_start dflt defs rest (i + 1) hc] at h1
  cases h1
  have hb : b = true ↔ Passes level dflt := by
    rw [h3]
    exact ⟨fun h => h.2, fun h => ⟨none_disabled _ _ _, h⟩⟩
  obtain ⟨b', h4, h5⟩ := C58_module_partial env (start dflt defs) (i + 1) rest level msg hc d.module hm .default (by rw [(start_module _ _ _ _ hm).1]; rfl)
  rw [h2] at h4
  cases h4
  have hname : d.module.name = some (match d with | .define n => n | .define2 n _ => n) := by cases d <;> rfl
  constructor
  · intro hpass
    rw [h2, hb.2 hpass]
    refine ⟨rfl, ?_⟩
    rw [h5, if_pos (hb.2 hpass), printed env dflt defs _ _ hm level msg hs, hname]
    cases d <;> rfl
  · intro hpass
    have hb' : b = false := by
      cases b with
      | false => rfl
      | true => exact absurd (hb.1 rfl) hpass
    rw [h2, hb']
    refine ⟨rfl, ?_⟩
    rw [h5, hb']
    rfl

/-- Without a module, or with the default one, there's just no name. -/
theorem C128_default (env : Env) (dflt : Int) (defs : List Def) (module : Option Nat) (hmod : module = none ∨ module = some 0) (level : Int) (msg : Str) (hs : msg.length < 2 ^ 31 - 1) :
    (Passes level dflt → enabled (start dflt defs) module level = .ok true ∧ logv env (start dflt defs) module level msg = .ok [.stdio false (line none level msg)]) ∧
    (¬ Passes level dflt → enabled (start dflt defs) module level = .ok false ∧ logv env (start dflt defs) module level msg = .ok []) := by
  have hc : Chain (start dflt defs).modules [0] := ⟨_, rfl, .inr rfl⟩
  obtain ⟨max, b, h1, h2, h3⟩ := C59_level (start dflt defs) 0 [] level hc rfl
  rw [level_start dflt defs [] 0 hc] at h1
  cases h1
  have hb : b = true ↔ Passes level dflt := by
    rw [h3]
    exact ⟨fun h => h.2, fun h => ⟨none_disabled _ _ _, h⟩⟩
  have he : enabled (start dflt defs) module level = .ok b := by
    rcases hmod with rfl | rfl
    · rw [(C59_null _ _).1, h2]
    · exact h2
  have hl : logv env (start dflt defs) module level msg = if b then callProc2 env (start dflt defs) .default 0 level msg else .ok [] := by
    rcases hmod with rfl | rfl
    · obtain ⟨b', h4, h5⟩ := C58_null_partial env (start dflt defs) level msg (defaultModule dflt) rfl rfl (.inr rfl) .default rfl
      rw [he] at h4
      cases h4
      exact h5
    · obtain ⟨b', h4, h5⟩ := C58_module_partial env (start dflt defs) 0 [] level msg hc (defaultModule dflt) rfl .default rfl
      rw [he] at h4
      cases h4
      exact h5
  constructor
  · intro hpass
    rw [he, hl, hb.2 hpass, if_pos rfl, printed env dflt defs 0 _ rfl level msg hs]
    exact ⟨rfl, rfl⟩
  · intro hpass
    have hb' : b = false := by
      cases b with
      | false => rfl
      | true => exact absurd (hb.1 rfl) hpass
    rw [he, hl, hb']
    exact ⟨rfl, rfl⟩

/-- The default level is "info", or "debug" in debug builds. -/
theorem C128_level (debug : Bool) (level : Int) : Passes level (levelDefault debug none) ↔ level = 1 ∨ level = 2 ∨ level = 3 ∨ (debug = true ∧ level = 4) ∨ level = -2 := by
  unfold Passes levelDefault
  cases debug <;> simp [DEBUG, INFO] <;> omega

/-- The macros which dump data do so if messages of the debug level are compiled in, otherwise their arguments aren't evaluated. -/
theorem C128_dump {σ : Type} (fuel : Nat) (env : Env) (ct : Ctype) (cfg : σ → Log.State) (b : Build) (p p1 p2 : σ) (data : List Byte) (size : Nat) (bytes : Option (List Byte))
    (args : Expr σ (List Byte × Nat)) (args2 : Expr σ (Option (List Byte))) (h1 : args p = .ok ((data, size), p1)) (h2 : args2 p = .ok (bytes, p2)) :
    (4 ≤ b.levelMax → debugDump fuel env ct cfg b args p = (dump fuel env ct (cfg p1) b.module 4 none data size >>= fun o => .ok (o, p1)) ∧
      debugDumpBytes fuel env ct cfg b args2 p = (dumpBytes fuel env ct (cfg p2) b.module 4 none bytes >>= fun o => .ok (o, p2))) ∧
    (b.levelMax < 4 → debugDump fuel env ct cfg b args p = .ok ([], p) ∧ debugDumpBytes fuel env ct cfg b args2 p = .ok ([], p)) := by
  constructor
  · intro h
    unfold debugDump debugDumpBytes
    rw [if_pos (show b.levelMax ≥ DEBUG from h), if_pos (show b.levelMax ≥ DEBUG from h), h1, h2]
    exact ⟨rfl, rfl⟩
  · intro h
    unfold debugDump debugDumpBytes
    have : ¬ b.levelMax ≥ DEBUG := by show ¬ (4 : Int) ≤ b.levelMax; omega
    rw [if_neg this, if_neg this]
    exact ⟨rfl, rfl⟩

/-- Two modules, one of which is the parent of the other one and a child of the default one. -/
def exampleDefs : List Def := [.define2 (lit "parent") 0, .define2 (lit "child") 1, .define (lit "other")]

/-- `C128_module` -/
example : (∀ (i : Nat) n p, exampleDefs[i]? = some (.define2 n p) → p ≤ exampleDefs.length ∧ id p < id (i + 1)) ∧ Passes 1 3 ∧ ¬ Passes 4 3 ∧
    logv ⟨id, []⟩ (start 3 exampleDefs) (some 2) 1 (lit "oops") = .ok [.stdio false (ascii "[child] ERROR: oops\n")] := by
  refine ⟨fun i n p h => ?_, .inl (by omega), (by rintro (h | h) <;> omega), by decide +kernel⟩
  match i with
  | 0 => cases h; exact ⟨by decide, by decide⟩
  | 1 => cases h; exact ⟨by decide, by decide⟩
  | 2 => cases h
  | i + 3 => simp [exampleDefs] at h

/-- `C128_default` -/
example : logv ⟨id, []⟩ (start 3 exampleDefs) none 2 (lit "oops") = .ok [.stdio false (ascii "WARNING: oops\n")] := by decide +kernel

/-- `C128_dump`: nothing's dumped by default. -/
example : ∃ b : Build, 4 ≤ b.levelMax ∧ debugDump 10 ⟨id, []⟩ ⟨.wrap, true, fun _ => true⟩ id b (fun p => .ok (([1], 1), p)) (start 3 exampleDefs) = .ok ([], start 3 exampleDefs) :=
  ⟨⟨false, none, none, none⟩, by decide, by decide +kernel⟩

end Verif.LogDefine
