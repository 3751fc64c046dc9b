import Verif.Spec.LogLaws
import Verif.Proof.Log

/-!
# Changes of log levels, proof
-/

namespace Verif.Log
open Verif.C Spec

/-! ### Lower levels -/

theorem quieter_get {a b : State} (h : Quieter a b) (i : Nat) :
    (∃ m k, a.get i = .ok m ∧ b.get i = .ok k ∧ Lowered m k) ∨ (a.get i = .error .badPtr ∧ b.get i = .error .badPtr) := by
  unfold State.get
  cases ha : a.modules[i]? with
  | none =>
    have : b.modules[i]? = none := by rw [List.getElem?_eq_none_iff] at ha ⊢; rw [← h.1]; exact ha
    rw [this]
    exact .inr ⟨rfl, rfl⟩
  | some m =>
    cases hb : b.modules[i]? with
    | none =>
      rw [List.getElem?_eq_none_iff, ← h.1, ← List.getElem?_eq_none_iff, ha] at hb
      cases hb
    | some k => exact .inl ⟨m, k, rfl, rfl, h.2.1 i m k ha hb⟩

/-- What the log functions see is the same. -/
def Twins (a b : State) (i : Nat) : Prop :=
  (∃ m k : Module, a.get i = .ok m ∧ b.get i = .ok k ∧ m.name = k.name ∧ m.proc = k.proc ∧ m.hideName = k.hideName) ∨
    (∃ e, a.get i = .error e ∧ b.get i = .error e)

theorem callProc_twins (env : Env) (a b : State) (he : a = { b with modules := a.modules }) (h0 : Twins a b 0) (p : Proc) (name : Option Str) (level : Int) (msg : Str) :
    callProc env a p name level msg = callProc env b p name level msg := by
  have e1 : ∀ err, stdio env a err name level msg = stdio env b err name level msg := by intro err; rw [he]; rfl
  cases p with
  | stdout => exact e1 false
  | stderr => exact e1 true
  | glib => rfl
  | other id => rfl
  | syslog =>
    show syslog env a name level msg = syslog env b name level msg
    unfold syslog
    have e2 : tidText env a = tidText env b := by rw [he]; rfl
    have e3 : a.tid = b.tid := by rw [he]
    rcases h0 with ⟨m, k, h1, h2, h3, _⟩ | ⟨e, h1, h2⟩
    · rw [h1, h2, ok_bind, ok_bind, h3, e2, e3]
    · rw [h1, h2]; rfl

theorem emit_twins (env : Env) (a b : State) (he : a = { b with modules := a.modules }) (h0 : Twins a b 0) (module : Option Nat)
    (hm : Twins a b (module.getD 0)) (level : Int) (msg : Str) : emit env a module level msg = emit env b module level msg := by
  have ef : a.func2 = b.func2 := by rw [he]
  have eg : a.func = b.func := by rw [he]
  have hc := callProc_twins env a b he h0
  have hq : ∀ q, callProc2 env a q (module.getD 0) level msg = callProc2 env b q (module.getD 0) level msg := by
    intro q
    cases q with
    | default =>
      show defaultProc env a _ level msg = defaultProc env b _ level msg
      unfold defaultProc
      rcases hm with ⟨m, k, h1, h2, h3, h4, h5⟩ | ⟨e, h1, h2⟩
      · rw [h1, h2, ok_bind, ok_bind, eg, h3, h5]
        cases b.func with
        | none => rfl
        | some f => exact hc f _ level msg
      · rw [h1, h2]; rfl
    | wrap p =>
      unfold callProc2
      dsimp only
      rcases hm with ⟨m, k, h1, h2, h3, h4, h5⟩ | ⟨e, h1, h2⟩
      · rw [h1, h2, ok_bind, ok_bind, h3]; exact hc p _ level msg
      · rw [h1, h2]; rfl
    | other id => rfl
  unfold emit
  dsimp only
  rcases hm with ⟨m, k, h1, h2, h3, h4, h5⟩ | ⟨e, h1, h2⟩
  · rw [h1, h2, ok_bind, ok_bind, h4, ef]
    cases (if k.proc.isSome then k.proc else b.func2) with
    | none => rfl
    | some q => exact hq q
  · rw [h1, h2]; rfl

theorem quieter_twins {a b : State} (h : Quieter a b) (i : Nat) : Twins a b i := by
  rcases quieter_get h i with ⟨m, k, h1, h2, h3⟩ | ⟨h1, h2⟩
  · exact .inl ⟨m, k, h1, h2, h3.1, h3.2.2.1, h3.2.2.2.1⟩
  · exact .inr ⟨_, h1, h2⟩

/-- The first is the second, or nothing; if the second hasn't failed then the first hasn't. -/
def Less (x y : M (List Out)) : Prop := x = .ok [] ∨ x = y

theorem passes_less {level a b : Int} (h : a ≤ b) (hp : passes level a = true) : passes level b = true := by
  unfold passes at *
  simp only [decide_eq_true_eq] at *
  omega

theorem lowered_effective {m k d e : Module} (h : Lowered m k) (hd : Lowered d e) :
    (if m.level = INHERIT then d.level else m.level) ≤ (if k.level = INHERIT then e.level else k.level) := by
  obtain ⟨-, -, -, -, -, h⟩ := h
  obtain ⟨-, -, -, -, -, hd⟩ := hd
  unfold INHERIT
  rcases h with h | ⟨h1, h2, h3⟩
  · rw [h]
    split
    · omega
    · omega
  · rw [if_neg h1, if_neg h2]; exact h3

theorem decide_less (env : Env) {a b : State} (h : Quieter a b) (module : Option Nat) (o1 o2 : Option Int)
    (ho : ∀ d e : Module, Lowered d e → o1.getD d.level ≤ o2.getD e.level) (level : Int) (msg : Str) :
    Less (decide env a module o1 level msg) (decide env b module o2 level msg) := by
  have he := emit_twins env a b h.2.2 (quieter_twins h 0) module (quieter_twins h _) level msg
  unfold decide
  rcases quieter_get h 0 with ⟨d, e, h1, h2, h3⟩ | ⟨h1, h2⟩
  · rw [h1, h2, ok_bind, ok_bind]
    by_cases hp : passes level (o1.getD d.level) = true
    · rw [if_pos hp, if_pos (passes_less (ho d e h3) hp)]
      exact .inr he
    · rw [if_neg hp]; exact .inl rfl
  · rw [h1, h2]; exact .inr rfl

theorem logvR_less (env : Env) {a b : State} (h : Quieter a b) (module : Option Nat) (level : Int) (msg : Str) : ∀ (fuel : Nat) (check : Option Nat),
    Less (logvR env a module level msg fuel check) (logvR env b module level msg fuel check) := by
  intro fuel
  induction fuel with
  | zero => intro check; exact .inr (by cases check <;> rfl)
  | succ fuel ih =>
    intro check
    cases check with
    | none =>
      refine decide_less env h module none none (fun d e hl => ?_) level msg
      obtain ⟨-, -, -, -, -, hl⟩ := hl
      show d.level ≤ e.level
      omega
    | some i =>
      unfold logvR
      rcases quieter_get h i with ⟨m, k, h1, h2, h3⟩ | ⟨h1, h2⟩
      · rw [h1, h2, ok_bind, ok_bind]
        by_cases hd : m.disable = true
        · rw [if_pos hd]; exact .inl rfl
        · rw [if_neg hd, if_neg (fun hk => hd (h3.2.2.2.2.1 hk)), h3.2.1]
          have hin : m.level = INHERIT ↔ k.level = INHERIT := by
            obtain ⟨-, -, -, -, -, hl⟩ := h3
            unfold INHERIT
            omega
          cases k.parent with
          | some p =>
            dsimp only
            by_cases hi : m.level = INHERIT
            · rw [if_pos hi, if_pos (hin.mp hi)]; exact ih (some p)
            · rw [if_neg hi, if_neg (fun x => hi (hin.mpr x))]
              refine decide_less env h module _ _ (fun d e hl => ?_) level msg
              obtain ⟨-, -, -, -, -, h3⟩ := h3
              show m.level ≤ k.level
              omega
          | none =>
            dsimp only
            refine decide_less env h module _ _ (fun d e hl => ?_) level msg
            have := lowered_effective h3 hl
            by_cases hi : m.level = INHERIT
            · rw [if_pos hi, if_pos (hin.mp hi)] at *; exact this
            · rw [if_neg hi, if_neg (fun x => hi (hin.mpr x))] at *; exact this
      · rw [h1, h2]; exact .inr rfl

theorem logv_less (env : Env) {a b : State} (h : Quieter a b) (module : Option Nat) (level : Int) (msg : Str) :
    Less (logv env a module level msg) (logv env b module level msg) := by
  have ef : a.func2 = b.func2 := by rw [h.2.2]
  unfold logv
  rw [ef, h.1]
  split
  · exact logvR_less env h module level msg _ module
  · exact .inr rfl

theorem enabledR_less {a b : State} (h : Quieter a b) (level : Int) : ∀ (fuel i : Nat),
    enabledR a level fuel i = .ok false ∨ enabledR a level fuel i = enabledR b level fuel i := by
  intro fuel
  induction fuel with
  | zero => intro i; exact .inr rfl
  | succ fuel ih =>
    intro i
    unfold enabledR
    rcases quieter_get h i with ⟨m, k, h1, h2, h3⟩ | ⟨h1, h2⟩
    · rw [h1, h2, ok_bind, ok_bind]
      by_cases hd : m.disable = true
      · rw [if_pos hd]; exact .inl rfl
      · rw [if_neg hd, if_neg (fun hk => hd (h3.2.2.2.2.1 hk)), h3.2.1]
        have hin : m.level = INHERIT ↔ k.level = INHERIT := by
          obtain ⟨-, -, -, -, -, hl⟩ := h3
          unfold INHERIT
          omega
        have fin : ∀ x y : Int, x ≤ y → ((.ok (passes level x) : M Bool) = .ok false ∨ (.ok (passes level x) : M Bool) = .ok (passes level y)) := by
          intro x y hxy
          by_cases hp : passes level x = true
          · rw [hp, passes_less hxy hp]; exact .inr rfl
          · rw [Bool.not_eq_true] at hp; rw [hp]; exact .inl rfl
        cases k.parent with
        | some p =>
          dsimp only
          by_cases hi : m.level = INHERIT
          · rw [if_pos hi, if_pos (hin.mp hi)]; exact ih p
          · rw [if_neg hi, if_neg (fun x => hi (hin.mpr x))]
            refine fin _ _ ?_
            obtain ⟨-, -, -, -, -, h3⟩ := h3
            omega
        | none =>
          dsimp only
          rcases quieter_get h 0 with ⟨d, e, g1, g2, g3⟩ | ⟨g1, g2⟩
          · rw [g1, g2, ok_bind, ok_bind]
            exact fin _ _ (lowered_effective h3 g3)
          · rw [g1, g2]; exact .inr rfl
    · rw [h1, h2]; exact .inr rfl

/-! ### Other modules -/

theorem family_get {f : Nat → Prop} {a b : State} (h : SameFamily f a b) (i : Nat) (hi : f i) : a.get i = b.get i := by
  unfold State.get
  rw [(h.2.2.2 i hi).1]

theorem family_twins {f : Nat → Prop} {a b : State} (h : SameFamily f a b) (i : Nat) (hi : f i) : Twins a b i := by
  have e := family_get h i hi
  cases hb : b.get i with
  | error x => exact .inr ⟨x, by rw [e, hb], hb⟩
  | ok k => exact .inl ⟨k, k, by rw [e, hb], hb, rfl, rfl, rfl⟩

theorem family_parent {f : Nat → Prop} {a b : State} (h : SameFamily f a b) (i : Nat) (hi : f i) (m : Module) (hm : b.get i = .ok m) (p : Nat)
    (hp : m.parent = some p) : f p := by
  refine (h.2.2.2 i hi).2 m p ?_ hp
  unfold State.get at hm
  split at hm
  · injection hm with hm; rename_i e; rw [e, hm]
  · cases hm

theorem decide_family (env : Env) {f : Nat → Prop} {a b : State} (h : SameFamily f a b) (module : Option Nat) (hm : f (module.getD 0)) (o : Option Int)
    (level : Int) (msg : Str) : decide env a module o level msg = decide env b module o level msg := by
  unfold decide
  rw [family_get h 0 h.2.2.1, emit_twins env a b h.2.1 (family_twins h 0 h.2.2.1) module (family_twins h _ hm) level msg]

theorem logvR_family (env : Env) {f : Nat → Prop} {a b : State} (h : SameFamily f a b) (module : Option Nat) (hm : f (module.getD 0))
    (level : Int) (msg : Str) : ∀ (fuel : Nat) (check : Option Nat), (∀ i, check = some i → f i) →
    logvR env a module level msg fuel check = logvR env b module level msg fuel check := by
  intro fuel
  induction fuel with
  | zero => intro check _; cases check <;> rfl
  | succ fuel ih =>
    intro check hc
    cases check with
    | none => exact decide_family env h module hm none level msg
    | some i =>
      unfold logvR
      rw [family_get h i (hc i rfl)]
      cases hb : b.get i with
      | error e => rfl
      | ok m =>
        rw [ok_bind, ok_bind]
        split
        · rfl
        · cases hp : m.parent with
          | none => exact decide_family env h module hm _ level msg
          | some p =>
            dsimp only
            split
            · exact ih (some p) (fun j hj => by injection hj with hj; exact hj ▸ family_parent h i (hc i rfl) m hb p hp)
            · exact decide_family env h module hm _ level msg

theorem enabledR_family {f : Nat → Prop} {a b : State} (h : SameFamily f a b) (level : Int) : ∀ (fuel i : Nat), f i →
    enabledR a level fuel i = enabledR b level fuel i := by
  intro fuel
  induction fuel with
  | zero => intro i _; rfl
  | succ fuel ih =>
    intro i hi
    unfold enabledR
    rw [family_get h i hi]
    cases hb : b.get i with
    | error e => rfl
    | ok m =>
      rw [ok_bind, ok_bind]
      split
      · rfl
      · cases hp : m.parent with
        | none => rw [family_get h 0 h.2.2.1]
        | some p =>
          dsimp only
          split
          · exact ih p (family_parent h i hi m hb p hp)
          · rfl

end Verif.Log
