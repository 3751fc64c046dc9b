import Verif.Props.LogMacros

/-!
# C89: what is printed while the environment variables are being read
-/

namespace Verif.LogMacros
open Verif.C Verif.Log

/-- The state while the variables are being read -/
def initState (level : Int) (others : List Module) (timestamp tid : Bool) : Log.State :=
  { initial level others with timestamp := timestamp, tid := tid }

theorem init_log (env : Env) (level : Int) (others : List Module) (timestamp tid : Bool) (msg : Str) (ht : (env.strftime ftimeDefault).length < 32)
    (hm : msg.length < 2 ^ 31 - 1) :
    logv env (initState level others timestamp tid) none 4 msg = .ok (if 4 ≤ level then [.stdio false (
      (if tid then Log.Spec.ascii "[" ++ env.tid ++ Log.Spec.ascii "] " else []) ++ (if timestamp then env.strftime ftimeDefault else []) ++ msg ++ Log.Spec.ascii "\n")]
      else []) := by
  have h1 : logv env (initState level others timestamp tid) none 4 msg = if passes 4 level then
      callProc env (initState level others timestamp tid) .stdout none 4 msg else .ok [] := rfl
  rw [h1]
  have h2 : passes 4 level = Decidable.decide (4 ≤ level) := by
    unfold passes NONE ALWAYS
    by_cases h : 4 ≤ level <;> simp [h]
  rw [h2]
  by_cases h : 4 ≤ level
  · rw [if_pos (by simpa using h), if_pos h]
    have := C87_line_partial env (initState level others timestamp tid) false none 4 msg ftimeDefault rfl ht hm
    simp only [Bool.false_eq_true, if_false] at this
    rw [this]
    have hne : ftimeDefault ≠ [] := by decide +kernel
    cases timestamp <;> cases tid <;> simp [initState, hne]
  · rw [if_neg (by simpa using h), if_neg h]

theorem init_message (env : Env) (b : Build) (hb : b.module = none) (level : Int) (others : List Module) (timestamp tid : Bool) (msg : Str)
    (ht : (env.strftime ftimeDefault).length < 32) (hm : msg.length < 2 ^ 31 - 1) :
    message env id b DEBUG (fun s => .ok (msg, s)) (initState level others timestamp tid) = .ok (if 4 ≤ b.levelMax ∧ 4 ≤ level then [.stdio false (
      (if tid then Log.Spec.ascii "[" ++ env.tid ++ Log.Spec.ascii "] " else []) ++ (if timestamp then env.strftime ftimeDefault else []) ++ msg ++ Log.Spec.ascii "\n")]
      else [], initState level others timestamp tid) := by
  unfold message
  by_cases hl : 4 ≤ b.levelMax
  · rw [if_pos (show b.levelMax ≥ DEBUG from hl), ok_bind, hb]
    show (do let out ← logv env (initState level others timestamp tid) none 4 msg; .ok (out, initState level others timestamp tid)) = _
    rw [init_log env level others timestamp tid msg ht hm, ok_bind]
    simp [hl]
  · rw [if_neg (show ¬ b.levelMax ≥ DEBUG from hl), if_neg (fun h => hl h.1)]

theorem decimal_length (v : Int) (h : intMin ≤ v ∧ v ≤ intMax) : (decimal v).length ≤ 11 := by
  unfold decimal
  rw [List.length_append, List.length_map]
  have : (Nat.toDigits 10 v.natAbs).length ≤ 10 := by
    rw [Nat.length_toDigits_le_iff (by omega) (by omega)]
    unfold intMin intMax at h
    omega
  split <;> simp only [List.length_cons, List.length_nil] <;> omega

theorem intVar_range {var : Option Str} {min v : Int} (h : intVar var min = some v) : intMin ≤ v ∧ v ≤ intMax := by
  unfold intVar Parse.parseInt at h
  cases hp : Parse.parseInt64 var 0 with
  | none => rw [hp] at h; cases h
  | some x =>
    rw [hp] at h
    dsimp only at h
    by_cases hr : x ≥ intMin ∧ x ≤ intMax
    · rw [if_pos hr] at h
      dsimp only at h
      split at h
      · cases h
        exact ⟨hr.1, hr.2⟩
      · cases h
    · rw [if_neg hr] at h
      cases h

/-- What a variable means: its number, if that's not less than the limit -/
def setting (var : Option Str) (min : Int) : Option Int := (Parse.parseInt var 0).filter (min ≤ ·)

theorem intVar_setting (var : Option Str) (min : Int) : intVar var min = setting var min := by
  unfold intVar setting
  cases Parse.parseInt var 0 with
  | none => rfl
  | some v =>
    simp only [Option.filter]
    by_cases h : v ≥ min
    · rw [if_pos h, if_pos (by simpa using h)]
    · rw [if_neg h, if_neg (by simpa using h)]

/-- A line printed to stdout -/
def line (env : Env) (timestamp tid : Bool) (msg : Str) : Out :=
  .stdio false ((if tid then Log.Spec.ascii "[" ++ env.tid ++ Log.Spec.ascii "] " else []) ++ (if timestamp then env.strftime ftimeDefault else []) ++ msg ++ Log.Spec.ascii "\n")

/-- **C89** What the library prints while it's reading the environment variables, before anything else happens: a line about each of the variables which it understands, if it has been
compiled with debug messages and the default level (which is the first thing to be set) lets those through. Each one has the timestamp and the thread id as set so far. The resulting
state is the one described by C89_environment. -/
theorem C89_messages (env : Env) (b : Build) (hb : b.module = none) (dflt : Int) (others : List Module) (level timestamp tid : Option Str)
    (ht : (env.strftime ftimeDefault).length < 32) :
    init env b (initial dflt others) level timestamp tid = .ok (
      (if 4 ≤ b.levelMax ∧ 4 ≤ (setting level (-1)).getD dflt then
        ((setting level (-1)).toList.map fun v => line env false false (Log.Spec.ascii "Default log level " ++ decimal v)) ++
        ((setting timestamp 0).toList.map fun v => line env (Decidable.decide (0 < v)) false (Log.Spec.ascii (if 0 < v then "Timestamps enabled" else "Timestamps disabled"))) ++
        ((setting tid 0).toList.map fun v => line env (Decidable.decide (0 < (setting timestamp 0).getD 0)) (Decidable.decide (0 < v))
          (Log.Spec.ascii (if 0 < v then "Thread id prefix enabled" else "Thread id prefix disabled")))
      else []),
      Log.init (initial dflt others) level timestamp tid) := by
  have s1 : LogMacros.initLevel env b (initial dflt others) level = .ok (
      (if 4 ≤ b.levelMax ∧ 4 ≤ (setting level (-1)).getD dflt then ((setting level (-1)).toList.map fun v => line env false false (Log.Spec.ascii "Default log level " ++ decimal v)) else []),
      initState ((setting level (-1)).getD dflt) others false false) := by
    unfold LogMacros.initLevel
    have hi := intVar_setting level (-1)
    cases hs : setting level (-1) with
    | none =>
      rw [hs] at hi
      rw [show intVar level INHERIT = none from hi]
      simp [initState, initial]
    | some v =>
      rw [hs] at hi
      rw [show intVar level INHERIT = some v from hi]
      have hv := decimal_length v (intVar_range hi)
      have hst : (initial dflt others).setLevel 0 v = initState v others false false := rfl
      dsimp only
      rw [hst, init_message env b hb v others false false _ ht (by
        rw [List.length_append]
        have : (lit "Default log level ").length = 18 := by decide +kernel
        omega)]
      simp [line]
      rfl
  have s2 : ∀ l, LogMacros.initTimestamp env b (initState l others false false) timestamp = .ok (
      (if 4 ≤ b.levelMax ∧ 4 ≤ l then ((setting timestamp 0).toList.map fun v => line env (Decidable.decide (0 < v)) false
        (Log.Spec.ascii (if 0 < v then "Timestamps enabled" else "Timestamps disabled"))) else []),
      initState l others (Decidable.decide (0 < (setting timestamp 0).getD 0)) false) := by
    intro l
    unfold LogMacros.initTimestamp
    have hi := intVar_setting timestamp 0
    cases hs : setting timestamp 0 with
    | none =>
      rw [hs] at hi
      rw [hi]
      simp
    | some v =>
      rw [hs] at hi
      rw [hi]
      dsimp only
      have hst : ({ initState l others false false with timestamp := Decidable.decide (v > 0) } : Log.State) = initState l others (Decidable.decide (v > 0)) false := rfl
      have htx : lit "Timestamps " ++ lit (if v > 0 then "enabled" else "disabled") = Log.Spec.ascii (if 0 < v then "Timestamps enabled" else "Timestamps disabled") := by
        by_cases h : 0 < v
        · rw [if_pos h, if_pos h]; decide +kernel
        · rw [if_neg h, if_neg h]; decide +kernel
      have hlen : (Log.Spec.ascii (if 0 < v then "Timestamps enabled" else "Timestamps disabled")).length < 2 ^ 31 - 1 := by
        by_cases h : 0 < v
        · rw [if_pos h]; decide +kernel
        · rw [if_neg h]; decide +kernel
      rw [hst, htx, init_message env b hb l others _ false _ ht hlen]
      simp [line]
  have s3 : ∀ l t, LogMacros.initTid env b (initState l others t false) tid = .ok (
      (if 4 ≤ b.levelMax ∧ 4 ≤ l then ((setting tid 0).toList.map fun v => line env t (Decidable.decide (0 < v))
        (Log.Spec.ascii (if 0 < v then "Thread id prefix enabled" else "Thread id prefix disabled"))) else []),
      initState l others t (Decidable.decide (0 < (setting tid 0).getD 0))) := by
    intro l t
    unfold LogMacros.initTid
    have hi := intVar_setting tid 0
    cases hs : setting tid 0 with
    | none =>
      rw [hs] at hi
      rw [hi]
      simp
    | some v =>
      rw [hs] at hi
      rw [hi]
      dsimp only
      have hst : ({ initState l others t false with tid := Decidable.decide (v > 0) } : Log.State) = initState l others t (Decidable.decide (v > 0)) := rfl
      have htx : lit "Thread id prefix " ++ lit (if v > 0 then "enabled" else "disabled") =
          Log.Spec.ascii (if 0 < v then "Thread id prefix enabled" else "Thread id prefix disabled") := by
        by_cases h : 0 < v
        · rw [if_pos h, if_pos h]; decide +kernel
        · rw [if_neg h, if_neg h]; decide +kernel
      have hlen : (Log.Spec.ascii (if 0 < v then "Thread id prefix enabled" else "Thread id prefix disabled")).length < 2 ^ 31 - 1 := by
        by_cases h : 0 < v
        · rw [if_pos h]; decide +kernel
        · rw [if_neg h]; decide +kernel
      rw [hst, htx, init_message env b hb l others t _ _ ht hlen]
      simp [line]
  have s4 : initState ((setting level (-1)).getD dflt) others (Decidable.decide (0 < (setting timestamp 0).getD 0)) (Decidable.decide (0 < (setting tid 0).getD 0)) =
      Log.init (initial dflt others) level timestamp tid := by
    unfold Log.init Log.initLevel initFlag
    rw [show intVar level INHERIT = setting level (-1) from intVar_setting level (-1), intVar_setting timestamp 0, intVar_setting tid 0]
    cases setting level (-1) <;> cases setting timestamp 0 <;> cases setting tid 0 <;> rfl
  unfold init
  rw [s1, ok_bind]
  dsimp only
  rw [s2, ok_bind]
  dsimp only
  rw [s3, ok_bind]
  dsimp only
  rw [s4]
  by_cases h : 4 ≤ b.levelMax ∧ 4 ≤ (setting level (-1)).getD dflt
  · simp only [if_pos h]
  · simp only [if_neg h]
    rfl

/-- All three are set, in a library which has been compiled with debug messages. -/
example : (init ⟨fun _ => lit "12:00 ", lit "42"⟩ ⟨false, none, none, none⟩ (initial 3 []) (some (lit "4")) (some (lit "1")) (some (lit "0x10"))).map (·.1) =
    .ok [.stdio false (lit "Default log level 4\n"), .stdio false (lit "12:00 Timestamps enabled\n"), .stdio false (lit "[42] 12:00 Thread id prefix enabled\n")] := by decide +kernel

/-- The level is too low. -/
example : (init ⟨fun _ => lit "12:00 ", lit "42"⟩ ⟨false, none, none, none⟩ (initial 3 []) none (some (lit "1")) (some (lit "1"))).map (·.1) = .ok [] := by decide +kernel

end Verif.LogMacros
