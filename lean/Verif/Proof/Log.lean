import Verif.Spec.Log

namespace Verif.Log
open Verif.C Spec

/-- Pigeonhole -/
theorem nodup_length_le : ∀ (n : Nat) (l : List Nat), l.Nodup → (∀ x ∈ l, x < n) → l.length ≤ n := by
  intro n
  induction n with
  | zero =>
    intro l _ h
    cases l with
    | nil => simp
    | cons x t => exact absurd (h x (by simp)) (by omega)
  | succ n ih =>
    intro l hn h
    have h1 := ih (l.erase n) (hn.erase n) (by
      intro x hx
      have h2 := (List.Nodup.mem_erase_iff hn).mp hx
      have := h x h2.2
      have := h2.1
      omega)
    have h2 : l.length ≤ (l.erase n).length + 1 := by
      rw [List.length_erase]
      split <;> omega
    omega

theorem chain_unique (ms : List Module) : ∀ (a b : List Nat) (i : Nat), Chain ms (i :: a) → Chain ms (i :: b) → a = b := by
  intro a
  induction a with
  | nil =>
    intro b i h1 h2
    cases b with
    | nil => rfl
    | cons j t =>
      obtain ⟨m, e1, e2⟩ := h1
      obtain ⟨⟨m', e3, e4, e5⟩, _⟩ := h2
      rw [e1] at e3
      cases e3
      rcases e2 with e2 | e2
      · exact absurd e4 e2
      · rw [e2] at e5; cases e5
  | cons j t ih =>
    intro b i h1 h2
    obtain ⟨⟨m, e1, e2, e3⟩, h1⟩ := h1
    cases b with
    | nil =>
      obtain ⟨m', e4, e5⟩ := h2
      rw [e1] at e4
      cases e4
      rcases e5 with e5 | e5
      · exact absurd e2 e5
      · rw [e3] at e5; cases e5
    | cons k u =>
      obtain ⟨⟨m', e4, e5, e6⟩, h2⟩ := h2
      rw [e1] at e4
      cases e4
      rw [e3] at e6
      cases e6
      rw [ih u j h1 h2]

theorem chain_suffix (ms : List Module) : ∀ (a : List Nat) (i : Nat) (b : List Nat), Chain ms (a ++ i :: b) → Chain ms (i :: b) := by
  intro a
  induction a with
  | nil => intro i b h; exact h
  | cons x t ih =>
    intro i b h
    cases t with
    | nil => exact h.2
    | cons y u => exact ih i b h.2

theorem chain_nodup (ms : List Module) : ∀ l, Chain ms l → l.Nodup := by
  intro l
  induction l with
  | nil => intro h; exact h.elim
  | cons i t ih =>
    intro h
    rw [List.nodup_cons]
    constructor
    · intro hi
      obtain ⟨a, b, rfl⟩ := List.append_of_mem hi
      have h1 := chain_suffix ms (i :: a) i b h
      have h2 := chain_unique ms _ _ i h h1
      have := congrArg List.length h2
      simp at this
      omega
    · cases t with
      | nil => simp
      | cons j u => exact ih h.2

theorem chain_valid (ms : List Module) : ∀ l, Chain ms l → ∀ i ∈ l, i < ms.length := by
  intro l
  induction l with
  | nil => intro h; exact h.elim
  | cons i t ih =>
    intro h x hx
    rcases List.mem_cons.mp hx with rfl | hx
    · cases t with
      | nil =>
        obtain ⟨m, e, _⟩ := h
        exact (List.getElem?_eq_some_iff.mp e).1
      | cons j u =>
        obtain ⟨⟨m, e, _⟩, _⟩ := h
        exact (List.getElem?_eq_some_iff.mp e).1
    · cases t with
      | nil => simp at hx
      | cons j u => exact ih h.2 x hx

theorem chain_length (ms : List Module) (l : List Nat) (h : Chain ms l) : l.length ≤ ms.length :=
  nodup_length_le _ _ (chain_nodup ms l h) (chain_valid ms l h)

theorem get_ok (s : State) (i : Nat) (m : Module) (h : s.modules[i]? = some m) : s.get i = .ok m := by
  unfold State.get
  rw [h]

theorem passes_iff (level max : Int) : passes level max = true ↔ Passes level max := by
  unfold passes Passes
  rw [decide_eq_true_iff]
  exact Iff.rfl

/-- What's decided by the loop over parents -/
theorem enabledR_ok (s : State) (level : Int) (d : Module) (hd : s.modules[0]? = some d) : ∀ (l : List Nat) (i : Nat) (fuel : Nat),
    Chain s.modules (i :: l) → l.length < fuel → ∃ max b, levelOf s.modules (i :: l) = some max ∧
      enabledR s level fuel i = .ok b ∧ (b = true ↔ NoneDisabled s.modules (i :: l) ∧ Passes level max) := by
  intro l
  induction l with
  | nil =>
    intro i fuel h hf
    obtain ⟨m, e1, e2⟩ := h
    cases fuel with
    | zero => simp at hf
    | succ fuel =>
      refine ⟨if m.level = -1 then d.level else m.level, if m.disable then false else passes level (if m.level = -1 then d.level else m.level), ?_, ?_, ?_⟩
      · unfold levelOf
        simp only [List.getLast?_singleton, e1, hd, Option.map_some]
        split <;> rfl
      · rw [enabledR, get_ok s i m e1, ok_bind]
        by_cases hdis : m.disable = true
        · rw [if_pos hdis, if_pos hdis]
        · rw [if_neg hdis, if_neg hdis]
          cases hp : m.parent with
          | none =>
            simp only []
            rw [get_ok s 0 d hd, ok_bind]
            rfl
          | some p =>
            simp only []
            have : m.level ≠ -1 := by
              rcases e2 with e2 | e2
              · exact e2
              · rw [hp] at e2; cases e2
            rw [if_neg (show ¬ m.level = INHERIT from this), if_neg this]
      · by_cases hdis : m.disable = true
        · rw [if_pos hdis]
          simp only [Bool.false_eq_true, false_iff, not_and]
          intro h
          have := h i (by simp) m e1
          rw [this] at hdis
          cases hdis
        · rw [if_neg hdis, passes_iff]
          constructor
          · intro h
            refine ⟨?_, h⟩
            intro j hj m' hm'
            simp only [List.mem_singleton] at hj
            subst hj
            rw [e1] at hm'
            cases hm'
            simpa using hdis
          · exact fun h => h.2
  | cons j u ih =>
    intro i fuel h hf
    obtain ⟨⟨m, e1, e2, e3⟩, h⟩ := h
    cases fuel with
    | zero => simp at hf
    | succ fuel =>
      obtain ⟨max, b, h1, h2, h3⟩ := ih j fuel h (by simp at hf; omega)
      have hl : levelOf s.modules (i :: j :: u) = levelOf s.modules (j :: u) := by
        unfold levelOf
        rw [List.getLast?_cons_cons]
      have hen : enabledR s level (fuel + 1) i = if m.disable then .ok false else enabledR s level fuel j := by
        rw [enabledR, get_ok s i m e1, ok_bind]
        by_cases hdis : m.disable = true
        · rw [if_pos hdis, if_pos hdis]
        · rw [if_neg hdis, if_neg hdis, e3]
          simp only []
          rw [if_pos (show m.level = INHERIT from e2)]
      refine ⟨max, if m.disable then false else b, by rw [hl, h1], ?_, ?_⟩
      · rw [hen, h2]
        split <;> rfl
      · have hnd : NoneDisabled s.modules (i :: j :: u) ↔ m.disable = false ∧ NoneDisabled s.modules (j :: u) := by
          unfold NoneDisabled
          constructor
          · intro hh
            exact ⟨hh i (by simp) m e1, fun k hk => hh k (List.mem_cons_of_mem _ hk)⟩
          · rintro ⟨ha, hb⟩ k hk m' hm'
            rcases List.mem_cons.mp hk with rfl | hk
            · rw [e1] at hm'
              cases hm'
              exact ha
            · exact hb k hk m' hm'
        rw [hnd]
        cases hdis : m.disable with
        | true => simp
        | false =>
          simp only [Bool.false_eq_true, if_false, true_and]
          exact h3

/-- `gutil_logv_r` decides the same. -/
theorem logvR_ok (env : Env) (s : State) (module : Option Nat) (level : Int) (msg : Str) (hd : s.modules[0]?.isSome) : ∀ (fuel i : Nat) (b : Bool),
    enabledR s level fuel i = .ok b → logvR env s module level msg fuel (some i) = if b then emit env s module level msg else .ok [] := by
  obtain ⟨d, hd⟩ := Option.isSome_iff_exists.mp hd
  intro fuel
  induction fuel with
  | zero => intro i b h; cases h
  | succ fuel ih =>
    intro i b h
    rw [enabledR] at h
    rw [logvR]
    cases hg : s.get i with
    | error e => rw [hg, error_bind] at h; cases h
    | ok m =>
      rw [hg, ok_bind] at h
      rw [ok_bind]
      by_cases hdis : m.disable = true
      · rw [if_pos hdis] at h ⊢
        cases h
        rfl
      · rw [if_neg hdis] at h ⊢
        cases hp : m.parent with
        | some p =>
          rw [hp] at h
          simp only [] at h ⊢
          by_cases hi : m.level = INHERIT
          · rw [if_pos hi] at h ⊢
            exact ih p b h
          · rw [if_neg hi] at h ⊢
            cases h
            rw [decide, get_ok s 0 d hd, ok_bind]
            rfl
        | none =>
          rw [hp] at h
          simp only [] at h ⊢
          rw [get_ok s 0 d hd, ok_bind] at h
          cases h
          rw [decide, get_ok s 0 d hd, ok_bind]
          by_cases hi : m.level = INHERIT
          · rw [if_pos hi, if_pos hi]
            rfl
          · rw [if_neg hi, if_neg hi]
            rfl

/-- Formatting -/
theorem format_ok (msg : Str) (h : msg.length < 2 ^ 31 - 1) : format msg = .ok msg := by
  have hv : ∀ size, vsnprintf size msg = (msg.take (size.toNat - 1), (msg.length : Int)) := by
    intro size
    unfold vsnprintf intMax
    rw [if_pos (by omega)]
  unfold format
  rw [formatLoop, hv]
  simp only []
  by_cases h1 : (msg.length : Int) < 512
  · rw [if_pos ⟨by omega, h1⟩, List.take_of_length_le (by omega)]
  · rw [if_neg (fun h => h1 h.2), nextSize, if_pos (by omega), chk32, if_pos (by unfold intMin intMax; omega), ok_bind,
      formatLoop, hv]
    simp only []
    rw [if_pos ⟨by omega, by omega⟩, List.take_of_length_le (by omega)]

/-! ### Parsing -/

theorem strnEq_iff : ∀ (t n : Str), strnEq t.length n t = true ↔ t <+: n := by
  intro t
  induction t with
  | nil => intro n; simp [strnEq]
  | cons b t ih =>
    intro n
    cases n with
    | nil => simp [strnEq]
    | cons a s =>
      rw [List.length_cons, strnEq, Bool.and_eq_true, ih, List.cons_prefix_cons, beq_iff_eq]
      exact ⟨fun h => ⟨h.1.symm, h.2⟩, fun h => ⟨h.1.symm, h.2⟩⟩

theorem names_eq : names.map ascii = levelNames := by decide +kernel

theorem name_at (i : Nat) (n : String) (h : names[i]? = some n) : levelNames[i]? = some (ascii n) := by
  rw [← names_eq, List.getElem?_map, h]
  rfl

/-- The names differ in the first letter. -/
theorem first_letters : ∀ i j : Fin 6, i ≠ j → levelNames[i.1]?.bind List.head? ≠ levelNames[j.1]?.bind List.head? := by
  decide +kernel

theorem no_digits : ∀ i j : Fin 6, levelNames[i.1]?.bind List.head? ≠ some (BitVec.ofNat 8 (0x30 + j.1)) := by
  decide +kernel

theorem head_of_prefix (t n : Str) (h0 : t ≠ []) (h : t <+: n) : n.head? = t.head? := by
  obtain ⟨u, rfl⟩ := h
  cases t with
  | nil => exact absurd rfl h0
  | cons a s => rfl

theorem findLevel_iff (t : Str) (h0 : t ≠ []) (i : Nat) : findLevel t = some i ↔ ∃ n, levelNames[i]? = some n ∧ t <+: n := by
  unfold findLevel
  rw [List.findIdx?_eq_some_iff_getElem]
  constructor
  · rintro ⟨h, h1, _⟩
    exact ⟨_, List.getElem?_eq_getElem h, (strnEq_iff _ _).mp h1⟩
  · rintro ⟨n, h1, h2⟩
    obtain ⟨h3, h4⟩ := List.getElem?_eq_some_iff.mp h1
    refine ⟨h3, ?_, ?_⟩
    · rw [h4]; exact (strnEq_iff _ _).mpr h2
    · intro j hj hc
      have h5 := (strnEq_iff _ _).mp hc
      have h6 : levelNames[j]? = some levelNames[j] := List.getElem?_eq_getElem (by omega)
      have h7 : i < 6 := h3
      refine first_letters ⟨j, by omega⟩ ⟨i, h7⟩ (fun e => ?_) ?_
      · have := congrArg Fin.val e
        simp only [] at this
        omega
      · simp only [h6, h1, Option.bind_some]
        rw [head_of_prefix t _ h0 h5, head_of_prefix t n h0 h2]

theorem number_iff (c : Byte) (i : Nat) : number c = some i ↔ i ≤ 5 ∧ c = BitVec.ofNat 8 (0x30 + i) := by
  unfold number
  rw [List.findIdx?_eq_some_iff_getElem]
  constructor
  · rintro ⟨h, h1, _⟩
    simp only [List.length_cons, List.length_nil] at h
    simp only [beq_iff_eq] at h1
    refine ⟨by omega, ?_⟩
    rw [← h1]
    have : ∀ i : Fin 6, [0x30, 0x31, 0x32, 0x33, 0x34, 0x35][i.1] = BitVec.ofNat 8 (0x30 + i.1) := by decide +kernel
    exact this ⟨i, h⟩
  · rintro ⟨h, rfl⟩
    have h6 : i < 6 := by omega
    have e : ∀ i : Fin 6, [0x30, 0x31, 0x32, 0x33, 0x34, 0x35][i.1] = BitVec.ofNat 8 (0x30 + i.1) := by decide +kernel
    have e2 : ∀ i : Fin 6, ∀ j : Fin 6, j.1 < i.1 → ¬ ([0x30, 0x31, 0x32, 0x33, 0x34, 0x35][j.1] == BitVec.ofNat 8 (0x30 + i.1)) = true := by
      decide +kernel
    refine ⟨by simpa using h6, ?_, ?_⟩
    · rw [beq_iff_eq]; exact e ⟨i, h6⟩
    · intro j hj
      exact e2 ⟨i, h6⟩ ⟨j, by omega⟩ hj

theorem denotes_name (t : Str) (i : Nat) : (∃ n, levelNames[i]? = some n ∧ t <+: n) ↔ ∃ n, names[i]? = some n ∧ t <+: ascii n := by
  constructor
  · rintro ⟨n, h1, h2⟩
    rw [← names_eq, List.getElem?_map, Option.map_eq_some_iff] at h1
    obtain ⟨x, h3, h4⟩ := h1
    exact ⟨x, h3, by rw [h4]; exact h2⟩
  · rintro ⟨n, h1, h2⟩
    exact ⟨_, name_at i n h1, h2⟩

theorem parseLevel_iff (t : Str) (i : Nat) : parseLevel t = some i ↔ Denotes t i := by
  unfold Denotes
  have hN : t ≠ [] → ((∃ n, names[i]? = some n ∧ t ≠ [] ∧ t <+: ascii n) ↔ findLevel t = some i) := by
    intro h0
    rw [findLevel_iff t h0, denotes_name]
    simp [h0]
  cases t with
  | nil => simp [parseLevel]
  | cons c u =>
    rw [hN (by simp)]
    cases u with
    | nil =>
      rw [parseLevel]
      cases hn : number c with
      | some j =>
        simp only [Option.some.injEq]
        have hj := (number_iff c j).mp hn
        have hf : findLevel [c] ≠ some i := by
          intro h
          obtain ⟨n, h1, h2⟩ := (findLevel_iff [c] (by simp) i).mp h
          have h3 := (List.getElem?_eq_some_iff.mp h1).1
          refine no_digits ⟨i, h3⟩ ⟨j, by omega⟩ ?_
          simp only [h1, Option.bind_some]
          rw [head_of_prefix [c] n (by simp) h2, ← hj.2]
          rfl
        constructor
        · rintro rfl
          exact .inl ⟨hj.1, by rw [hj.2]⟩
        · rintro (⟨h1, h2⟩ | h)
          · have : number c = some i := (number_iff c i).mpr ⟨h1, by simpa using h2⟩
            rw [hn] at this
            exact Option.some.inj this
          · exact absurd h hf
      | none =>
        simp only []
        constructor
        · exact .inr
        · rintro (⟨h1, h2⟩ | h)
          · have : number c = some i := (number_iff c i).mpr ⟨h1, by simpa using h2⟩
            rw [hn] at this
            cases this
          · exact h
    | cons d v =>
      rw [parseLevel]
      · constructor
        · exact .inr
        · rintro (⟨h1, h2⟩ | h)
          · simp at h2
          · exact h
      · simp
      · simp

theorem small_lower (c : BitVec 8) : lower c = small c := by
  unfold lower small
  split
  · apply BitVec.eq_of_toNat_eq
    simp
  · rfl

theorem strncaseEq_iff : ∀ (k : Nat) (n t : Str), k ≤ t.length →
    ((strncaseEq k n t && n.length == k) = true ↔ SameText n (t.take k)) := by
  intro k
  induction k with
  | zero =>
    intro n t _
    simp only [strncaseEq, Bool.true_and, beq_iff_eq, List.take_zero, SameText, List.map_nil, List.map_eq_nil_iff]
    exact List.length_eq_zero_iff
  | succ k ih =>
    intro n t h
    cases t with
    | nil => simp at h
    | cons b t =>
      cases n with
      | nil => simp [strncaseEq, SameText]
      | cons a n =>
        have := ih n t (by simp at h; omega)
        simp only [strncaseEq, List.length_cons, SameText, List.take_succ_cons, List.map_cons, List.cons.injEq] at this ⊢
        rw [Bool.and_assoc, Bool.and_eq_true, beq_iff_eq, small_lower, small_lower]
        have e : (n.length + 1 == k + 1) = (n.length == k) := by simp
        rw [e, this]

theorem strcaseEq_iff : ∀ (a b : Str), strcaseEq a b = true ↔ SameText a b := by
  intro a
  induction a with
  | nil => intro b; cases b <;> simp [strcaseEq, SameText]
  | cons x a ih =>
    intro b
    cases b with
    | nil => simp [strcaseEq, SameText]
    | cons y b =>
      have := ih b
      simp only [SameText] at this
      simp only [strcaseEq, SameText, List.map_cons, List.cons.injEq, Bool.and_eq_true, beq_iff_eq, small_lower]
      rw [this]

theorem findModule_ok (s : State) (opt : Str) (k : Nat) (hk : k ≤ opt.length) : ∀ (l : List Nat),
    (∀ i ∈ l, ∃ m n, s.modules[i]? = some m ∧ m.name = some n) →
    ∃ r, findModule s opt k l = .ok r ∧
      match r with
      | some i => ∃ pre post, l = pre ++ i :: post ∧ (∃ m n, s.modules[i]? = some m ∧ m.name = some n ∧ SameText n (opt.take k)) ∧
          ∀ j ∈ pre, ∀ m n, s.modules[j]? = some m → m.name = some n → ¬ SameText n (opt.take k)
      | none => ∀ j ∈ l, ∀ m n, s.modules[j]? = some m → m.name = some n → ¬ SameText n (opt.take k) := by
  intro l
  induction l with
  | nil => intro _; exact ⟨none, rfl, by simp⟩
  | cons i rest ih =>
    intro h
    obtain ⟨m, n, h1, h2⟩ := h i (by simp)
    obtain ⟨r, e1, e2⟩ := ih (fun j hj => h j (List.mem_cons_of_mem _ hj))
    have hs : findModule s opt k (i :: rest) = if (strncaseEq k n opt && n.length == k) then .ok (some i) else findModule s opt k rest := by
      rw [findModule, get_ok s i m h1, ok_bind, h2, nameMatches, ok_bind]
    by_cases hb : (strncaseEq k n opt && n.length == k) = true
    · rw [hs, if_pos hb]
      exact ⟨_, rfl, [], rest, rfl, ⟨m, n, h1, h2, (strncaseEq_iff k n opt hk).mp hb⟩, by simp⟩
    · rw [hs, if_neg hb]
      have hno : ∀ m' n', s.modules[i]? = some m' → m'.name = some n' → ¬ SameText n' (opt.take k) := by
        intro m' n' h3 h4 h5
        rw [h1] at h3
        cases h3
        rw [h2] at h4
        cases h4
        exact hb ((strncaseEq_iff k n opt hk).mpr h5)
      refine ⟨r, e1, ?_⟩
      cases r with
      | none =>
        intro j hj
        rcases List.mem_cons.mp hj with rfl | hj
        · exact hno
        · exact e2 j hj
      | some x =>
        obtain ⟨pre, post, h3, h4, h5⟩ := e2
        refine ⟨i :: pre, post, by rw [h3]; rfl, h4, ?_⟩
        intro j hj
        rcases List.mem_cons.mp hj with rfl | hj
        · exact hno
        · exact h5 j hj

/-! ### Timestamp format -/

/-- The current timestamp format: there's one copy of it, or it's the default one. -/
def FormatIs (s : State) (cur : Option Str) : Prop :=
  match cur with
  | some f => ∃ a, s.custom = some a ∧ s.ftime = .at a ∧ s.heap[a]? = some (some f) ∧ s.heap.countP Option.isSome = 1
  | none => s.custom = none ∧ s.ftime = .default ∧ s.heap.countP Option.isSome = 0

theorem setFormat_ok (s : State) (cur f : Option Str) (h : FormatIs s cur) :
    ∃ s1, setTimestampFormat s f = .ok s1 ∧ FormatIs s1 f ∧
      { s1 with ftime := .default, custom := none, heap := [] } = { s with ftime := .default, custom := none, heap := [] } := by
  have cmp_eq : ∀ a b : Str, cmpBytes a b = 0 ↔ a = b := by
    intro a
    induction a with
    | nil => intro b; cases b <;> simp [cmpBytes]
    | cons x a ih =>
      intro b
      cases b with
      | nil => simp [cmpBytes]
      | cons y b =>
        rw [cmpBytes]
        by_cases e : x = y
        · rw [if_pos e, ih]
          simp [e]
        · rw [if_neg e]
          simp only [List.cons.injEq, e, false_and, iff_false]
          split <;> decide
  cases f with
  | none =>
    cases cur with
    | none =>
      refine ⟨s, ?_, h, rfl⟩
      unfold setTimestampFormat
      simp only [h.1]
    | some c =>
      obtain ⟨a, h1, h2, h3, h4⟩ := h
      obtain ⟨ha, hae⟩ := List.getElem?_eq_some_iff.mp h3
      refine ⟨{ s with ftime := .default, custom := none, heap := s.heap.set a none }, ?_, ⟨rfl, rfl, ?_⟩, rfl⟩
      · unfold setTimestampFormat
        simp only [h1, gfree, h3, ok_bind]
      · simp only []
        rw [List.countP_set ha, hae]
        simp [h4]
  | some f =>
    cases cur with
    | none =>
      refine ⟨{ s with ftime := .at s.heap.length, custom := some s.heap.length, heap := s.heap ++ [some f] }, ?_,
        ⟨_, rfl, rfl, by simp, ?_⟩, rfl⟩
      · unfold setTimestampFormat cmpCustom
        simp only [h.1, ok_bind, gfree]
        rw [if_pos (by decide)]
      · simp [h.2.2]
    | some c =>
      obtain ⟨a, h1, h2, h3, h4⟩ := h
      obtain ⟨ha, hae⟩ := List.getElem?_eq_some_iff.mp h3
      by_cases he : f = c
      · subst he
        refine ⟨s, ?_, ⟨a, h1, h2, h3, h4⟩, rfl⟩
        unfold setTimestampFormat cmpCustom
        simp only [h1, str, h3, ok_bind]
        rw [if_neg (by rw [(cmp_eq f f).mpr rfl]; simp)]
      · have h5 : (s.heap ++ [some f])[a]? = some (some c) := by rw [List.getElem?_append_left ha, h3]
        refine ⟨{ s with ftime := .at s.heap.length, custom := some s.heap.length, heap := (s.heap ++ [some f]).set a none }, ?_,
          ⟨_, rfl, rfl, ?_, ?_⟩, rfl⟩
        · unfold setTimestampFormat cmpCustom
          simp only [h1, str, h3, ok_bind]
          rw [if_pos (fun e => he ((cmp_eq f c).mp e))]
          simp only [gfree, h5, ok_bind]
        · simp only []
          rw [List.getElem?_set_ne (by omega)]
          simp
        · simp only []
          rw [List.countP_set (by simp; omega), List.getElem_append_left ha, hae]
          simp [h4]

end Verif.Log
