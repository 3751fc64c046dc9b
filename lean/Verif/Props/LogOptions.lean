import Verif.Props.Log
import Verif.Spec.LogOptions
import Verif.Model.LogOptions

/-!
# Several log options: C146
-/

namespace Verif.Log
open Verif.C Spec

theorem Spec.SameNames.refl (a : State) : SameNames a a := ⟨rfl, rfl, fun _ m h => ⟨m, h, rfl⟩⟩

theorem Spec.SameNames.trans {a b c : State} (h : SameNames a b) (g : SameNames b c) : SameNames a c := by
  refine ⟨?_, g.2.1.trans h.2.1, fun i m hm => ?_⟩
  · have h1 := h.1
    have g1 := g.1
    rw [h1] at g1
    exact g1
  · obtain ⟨m', h1, h2⟩ := h.2.2 i m hm
    obtain ⟨m'', g1, g2⟩ := g.2.2 i m' h1
    refine ⟨m'', g1, ?_⟩
    rw [g2, h2]

theorem Spec.SameNames.back {a b : State} (h : SameNames a b) {i : Nat} {m' : Module} (hm : b.modules[i]? = some m') :
    ∃ m, a.modules[i]? = some m ∧ m' = { m with level := m'.level } := by
  obtain ⟨hi, -⟩ := List.getElem?_eq_some_iff.1 hm
  rw [h.2.1] at hi
  obtain ⟨m'', h1, h2⟩ := h.2.2 i _ (List.getElem?_eq_getElem hi)
  rw [hm] at h1
  injection h1 with h1
  subst h1
  exact ⟨_, List.getElem?_eq_getElem hi, h2⟩

theorem about_of_same {a b : State} (h : SameNames a b) {modules : List Nat} {opt : Str} {i l : Nat} (ha : About a modules opt i l) :
    About b modules opt i l := by
  rcases ha with ha | ⟨name, t, pre, post, m, n, h1, h2, h3, h4, h5, h6, h7, h8⟩
  · exact .inl ha
  · obtain ⟨m', k1, k2⟩ := h.2.2 i m h5
    refine .inr ⟨name, t, pre, post, m', n, h1, h2, h3, h4, k1, by rw [k2]; exact h6, h7, fun j hj mj nj hmj hnj => ?_⟩
    obtain ⟨mj', g1, g2⟩ := h.back hmj
    refine h8 j hj mj' nj g1 ?_
    rw [g2] at hnj
    exact hnj

theorem about_to_same {a b : State} (h : SameNames a b) {modules : List Nat} {opt : Str} {i l : Nat} (ha : About b modules opt i l) :
    About a modules opt i l := by
  rcases ha with ha | ⟨name, t, pre, post, m, n, h1, h2, h3, h4, h5, h6, h7, h8⟩
  · exact .inl ha
  · obtain ⟨m', k1, k2⟩ := h.back h5
    refine .inr ⟨name, t, pre, post, m', n, h1, h2, h3, h4, k1, by rw [k2] at h6; exact h6, h7, fun j hj mj nj hmj hnj => ?_⟩
    obtain ⟨mj', g1, g2⟩ := h.2.2 j mj hmj
    exact h8 j hj mj' nj g1 (by rw [g2]; exact hnj)

theorem first_named (s : State) (name : Str) : ∀ modules : List Nat,
    (∃ j ∈ modules, ∃ m n, s.modules[j]? = some m ∧ m.name = some n ∧ SameText n name) →
    ∃ k pre post m n, modules = pre ++ k :: post ∧ s.modules[k]? = some m ∧ m.name = some n ∧ SameText n name ∧
      ∀ j ∈ pre, ∀ m n, s.modules[j]? = some m → m.name = some n → ¬ SameText n name := by
  intro modules
  induction modules with
  | nil => rintro ⟨j, hj, -⟩; cases hj
  | cons a rest ih =>
    rintro ⟨j, hj, m, n, h1, h2, h3⟩
    by_cases ha : ∃ m n, s.modules[a]? = some m ∧ m.name = some n ∧ SameText n name
    · obtain ⟨m, n, k1, k2, k3⟩ := ha
      exact ⟨a, [], rest, m, n, rfl, k1, k2, k3, fun j hj => by cases hj⟩
    · rcases List.mem_cons.1 hj with rfl | hj
      · exact (ha ⟨m, n, h1, h2, h3⟩).elim
      · obtain ⟨k, pre, post, m, n, k1, k2, k3, k4, k5⟩ := ih ⟨j, hj, m, n, h1, h2, h3⟩
        refine ⟨k, a :: pre, post, m, n, by rw [k1]; rfl, k2, k3, k4, fun j hj m n e1 e2 e3 => ?_⟩
        rcases List.mem_cons.1 hj with rfl | hj
        · exact ha ⟨m, n, e1, e2, e3⟩
        · exact k5 j hj m n e1 e2 e3

/-- What one option does -/
theorem option_about (s : State) (modules : List Nat) (hm : ∀ i ∈ modules, ∃ m n, s.modules[i]? = some m ∧ m.name = some n) (opt : Str) :
    (∀ i l, About s modules opt i l →
      parseOption s opt modules = .ok ({ s with modules := s.modules.modify i (fun m => { m with level := l }) }, true, none)) ∧
    ((∀ i l, ¬ About s modules opt i l) → ∃ e, parseOption s opt modules = .ok (s, false, some e)) := by
  constructor
  · rintro i l (⟨h1, h2, rfl⟩ | ⟨name, t, pre, post, m, n, rfl, h2, h3, h4, h5, h6, h7, h8⟩)
    · exact (C60_default s opt modules h1).1 l h2
    · exact (C60_module_partial s name t modules h2 hm).1 l pre i post m n h3 h4 h5 h6 h7 h8
  · intro hn
    by_cases hc : (0x3a : Byte) ∈ opt
    · obtain ⟨name, t, rfl, hc'⟩ := List.eq_append_cons_of_mem hc
      have h60 := C60_module_partial s name t modules hc' hm
      by_cases hd : ∃ l, Denotes t l
      · obtain ⟨l, hl⟩ := hd
        refine ⟨_, h60.2.2 l hl ?_⟩
        -- otherwise there would be the first one with this name
        intro j hj mj nj hmj hnj hs
        obtain ⟨k, hk⟩ := first_named s name modules ⟨j, hj, mj, nj, hmj, hnj, hs⟩
        obtain ⟨pre, post, m, n, k1, k2, k3, k4, k5⟩ := hk
        exact hn k l (.inr ⟨name, t, pre, post, m, n, rfl, hc', hl, k1, k2, k3, k4, k5⟩)
      · exact ⟨_, h60.2.1 (fun l hl => hd ⟨l, hl⟩)⟩
    · refine ⟨_, (C60_default s opt modules hc).2 (fun l hl => hn 0 l (.inl ⟨hc, hl, rfl⟩))⟩

theorem same_modify (s : State) (i l : Nat) : SameNames s { s with modules := s.modules.modify i (fun m => { m with level := l }) } := by
  refine ⟨rfl, by simp, fun j m hm => ?_⟩
  rw [List.getElem?_modify, hm]
  refine ⟨_, rfl, ?_⟩
  by_cases h : i = j <;> simp [h]

/-- **C146**: if all the modules given to them have names, any number of options, one after another, are all processed. Each of them is accepted or
rejected as if it were alone, no matter what has been before it: it's accepted if and only if it's about some module and some level. After all of
them, each module has the level of the last option which is about it, and the same level as in the beginning if there's no such option. Nothing
else has changed. -/
theorem C146_options_partial (s : State) (modules : List Nat) (hm : ∀ i ∈ modules, ∃ m n, s.modules[i]? = some m ∧ m.name = some n)
    (opts : List Str) :
    ∃ s' rs, parseOptions s modules opts = .ok (s', rs) ∧ rs.length = opts.length ∧
      (∀ (k : Nat) (opt : Str), opts[k]? = some opt → ((∃ e, rs[k]? = some (true, e)) ↔ ∃ i l, About s modules opt i l)) ∧
      SameNames s s' ∧
      ∀ (i : Nat) (m : Module), s.modules[i]? = some m → ∃ m' : Module, s'.modules[i]? = some m' ∧
        (∀ pre opt post l, opts = pre ++ opt :: post → About s modules opt i l → (∀ o ∈ post, ∀ l, ¬ About s modules o i l) → m'.level = l) ∧
        ((∀ o ∈ opts, ∀ l, ¬ About s modules o i l) → m'.level = m.level) := by
  induction opts generalizing s with
  | nil =>
    refine ⟨s, [], rfl, rfl, ?_, .refl s, fun i m h => ⟨m, h, ?_, fun _ => rfl⟩⟩
    · intro k opt h; simp at h
    · intro pre opt post l h; simp at h
  | cons o opts ih =>
    -- the first one
    have hstep : ∃ s1 b e, parseOption s o modules = .ok (s1, b, e) ∧ SameNames s s1 ∧ (b = true ↔ ∃ i l, About s modules o i l) ∧
        ∀ (i : Nat) (m : Module), s.modules[i]? = some m → ∃ m1 : Module, s1.modules[i]? = some m1 ∧
          (∀ l, About s modules o i l → m1.level = l) ∧ ((∀ l, ¬ About s modules o i l) → m1.level = m.level) := by
      have ho := option_about s modules hm o
      by_cases ha : ∃ i l, About s modules o i l
      · obtain ⟨i, l, ha'⟩ := ha
        have h1 := ho.1 i l ha'
        refine ⟨_, _, _, h1, same_modify s i l, by simp only [true_iff]; exact ⟨i, l, ha'⟩, fun j m hj => ?_⟩
        dsimp only
        rw [List.getElem?_modify, hj]
        refine ⟨_, rfl, fun l' hl' => ?_, fun hno => ?_⟩
        · have h2 := ho.1 j l' hl'
          rw [h1] at h2
          injection h2 with h2
          injection h2 with h2 _
          injection h2 with h2
          have h3 : (s.modules.modify i (fun m => { m with level := l }))[j]? = (s.modules.modify j (fun m => { m with level := l' }))[j]? := by
            rw [h2]
          rw [List.getElem?_modify, List.getElem?_modify, hj] at h3
          simp only [Option.map_some, if_true] at h3
          injection h3 with h3
          exact congrArg Module.level h3
        · by_cases hij : i = j
          · subst hij; exact (hno l ha').elim
          · simp [hij]
      · obtain ⟨e, h1⟩ := ho.2 (fun i l h => ha ⟨i, l, h⟩)
        refine ⟨_, _, _, h1, .refl s, by simp only [Bool.false_eq_true, false_iff]; exact ha, fun j m hj => ⟨m, hj, fun l hl => (ha ⟨j, l, hl⟩).elim, fun _ => rfl⟩⟩
    obtain ⟨s1, b, e, hp, hs, hb, hl⟩ := hstep
    have hm1 : ∀ i ∈ modules, ∃ m n, s1.modules[i]? = some m ∧ m.name = some n := by
      intro i hi
      obtain ⟨m, n, k1, k2⟩ := hm i hi
      obtain ⟨m', g1, g2⟩ := hs.2.2 i m k1
      exact ⟨m', n, g1, by rw [g2]; exact k2⟩
    obtain ⟨s', rs, hr, hlen, hacc, hsame, hlev⟩ := ih s1 hm1
    refine ⟨s', (b, e) :: rs, ?_, by simp [hlen], ?_, hs.trans hsame, ?_⟩
    · unfold parseOptions
      rw [hp]
      show (do let q ← parseOptions s1 modules opts; Except.ok (q.1, (b, e) :: q.2)) = _
      rw [hr]; rfl
    · intro k opt hk
      cases k with
      | zero =>
        simp only [List.getElem?_cons_zero, Option.some.injEq] at hk ⊢
        subst hk
        rw [← hb]
        constructor
        · rintro ⟨e', h⟩; exact congrArg Prod.fst h
        · rintro rfl; exact ⟨e, rfl⟩
      | succ k =>
        simp only [List.getElem?_cons_succ] at hk ⊢
        rw [hacc k opt hk]
        exact ⟨fun ⟨i, l, h⟩ => ⟨i, l, about_to_same hs h⟩, fun ⟨i, l, h⟩ => ⟨i, l, about_of_same hs h⟩⟩
    · intro i m hmi
      obtain ⟨m1, g1, g2, g3⟩ := hl i m hmi
      obtain ⟨m', k1, k2, k3⟩ := hlev i m1 g1
      refine ⟨m', k1, ?_, ?_⟩
      · intro pre opt post l he ha hno
        cases pre with
        | nil =>
          simp only [List.nil_append, List.cons.injEq] at he
          obtain ⟨rfl, rfl⟩ := he
          rw [k3 (fun o ho l h => hno o ho l (about_to_same hs h))]
          exact g2 l ha
        | cons p pre =>
          simp only [List.cons_append, List.cons.injEq] at he
          exact k2 pre opt post l he.2 (about_of_same hs ha) (fun o ho l h => hno o ho l (about_to_same hs h))
      · intro hno
        rw [k3 (fun o ho l h => hno o (List.mem_cons_of_mem _ ho) l (about_to_same hs h))]
        exact g3 (hno o List.mem_cons_self)

/-- Two options for the same module, one for another one, one for the default module and one for nobody -/
example : (parseOptions exampleState [1, 2] [lit "B:deb", lit "a:1", lit "b:info", lit "x:1", lit "v"]).map
    (fun r => (r.1.modules.map Module.level, r.2.map Prod.fst)) = .ok ([5, 1, 3], [true, true, true, false, true]) := by decide +kernel

example : ∀ i ∈ [1, 2], ∃ m n, exampleState.modules[i]? = some m ∧ m.name = some n := by
  intro i hi
  simp only [List.mem_cons, List.not_mem_nil, or_false] at hi
  rcases hi with rfl | rfl <;> exact ⟨_, _, rfl, rfl⟩

/-- Without names it isn't true: the second option crashes, and would have been rejected if the module had a name. -/
theorem C146_refuted : parseOptions (initial 3 []) [0] [lit "debug", lit "foo:debug"] = .error .nullDeref := by decide +kernel

end Verif.Log
