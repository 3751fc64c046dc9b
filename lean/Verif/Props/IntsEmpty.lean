import Verif.Props.IntsExact
import Verif.Spec.IntsEmpty

/-!
# C39, if empty parts are asked for
-/

namespace Verif.Ints
open Verif.C Spec

theorem Inv.stepE {m : State} {s : Spec.State} (h : Inv m s none) (op : Op) (hp : PreE s op) :
    ∃ m', exec m op = .ok (m', (nextE s op).2) ∧ Inv m' (nextE s op).1 none := by
  match op, hp with
  | .part i off 0, hp =>
    obtain ⟨⟨so, hso, hown⟩, hoff⟩ := hp
    obtain ⟨mo, hmo⟩ := h.owned hso hown
    obtain ⟨so', hso', -, -, e, -⟩ := h.live i mo hmo
    rw [hso] at hso'
    cases hso'
    have hob := obj_ok hmo
    by_cases hlt : off < so.count
    · obtain ⟨m', e', inv'⟩ := h.step (.ref i) ⟨so, hso, hown⟩
      refine ⟨m', ?_, ?_⟩
      · rw [exec, C41_refuted hob off (by omega) hoff, ok_bind]
        rw [exec, ref, hob, ok_bind, ok_bind] at e'
        cases e'
        rfl
      · have : (nextE s (.part i off 0)).1 = (next s (.ref i)).1 := by
          show s.empty i off = _
          unfold State.empty next
          congr 1
          apply List.ext_getElem?
          intro k
          rw [List.getElem?_modify, List.getElem?_modify]
          by_cases hk : i = k
          · subst hk
            rw [hso]
            simp [hlt]
          · simp [hk]
        rw [this]
        exact inv'
    · refine ⟨m, ?_, ?_⟩
      · rw [exec, newFromInts, hob, ok_bind, if_neg (by omega), ok_bind]
        rfl
      · have : (nextE s (.part i off 0)).1 = s := by
          show s.empty i off = _
          unfold State.empty
          have : s.objs.modify i (fun o => if off < o.count then { o with own := o.own + 1 } else o) = s.objs := by
            apply List.ext_getElem?
            intro k
            rw [List.getElem?_modify]
            by_cases hk : i = k
            · subst hk
              rw [hso]
              simp [hlt]
            · simp [hk]
          rw [this]
        rw [this]
        exact h
  | .part i off (n + 1), hp => exact h.step _ hp
  | .alloc _, hp => exact h.step _ hp
  | .free _, hp => exact h.step _ hp
  | .new _ _, hp => exact h.step _ hp
  | .take _ _, hp => exact h.step _ hp
  | .static _ _, hp => exact h.step _ hp
  | .user _ _, hp => exact h.step _ hp
  | .ref _, hp => exact h.step _ hp
  | .unref _, hp => exact h.step _ hp
  | .toData _, hp => exact h.step _ hp

theorem Inv.runE {ops : List Op} : ∀ {m : State} {s : Spec.State}, Inv m s none → LegalE s ops →
    ∃ m', Ints.run m ops = .ok (m', (Spec.runE s ops).2) ∧ Inv m' (Spec.runE s ops).1 none := by
  induction ops with
  | nil => intro m s h _; exact ⟨m, rfl, h⟩
  | cons op t ih =>
    intro m s h hl
    obtain ⟨m1, r1, h1⟩ := h.stepE op hl.1
    obtain ⟨m2, r2, h2⟩ := ih h1 hl.2
    refine ⟨m2, ?_, h2⟩
    rw [Ints.run, r1, ok_bind]
    dsimp only
    rw [r2, ok_bind]
    rfl

/-- **C39** for histories with empty parts in them. If each request for an empty part (at an offset within the ints) is counted as a
reference, then everything is as it should be: the data is released when there are no references to the object and its parts, and not
before. So exactly those objects stay for which that has been asked and not made up for by another `gutil_ints_unref`. -/
theorem C39_exactly (ops : List Op) (h : LegalE ⟨[], []⟩ ops) :
    ∃ m, Ints.run ⟨[], []⟩ ops = .ok (m, (Spec.runE ⟨[], []⟩ ops).2) ∧
    (∀ (i : Nat) (o : Spec.Obj), (Spec.runE ⟨[], []⟩ ops).1.objs[i]? = some o →
      (Kept (Spec.runE ⟨[], []⟩ ops).1 i →
        getData m i = .ok ((Spec.runE ⟨[], []⟩ ops).1.data o) ∧ getCount m i = .ok o.count) ∧
      (¬ Kept (Spec.runE ⟨[], []⟩ ops).1 i → m.objs[i]? = some none)) ∧
    (∀ (b : Nat) (k : Spec.Block), (Spec.runE ⟨[], []⟩ ops).1.blocks[b]? = some k →
      (Remains (Spec.runE ⟨[], []⟩ ops).1 k → m.blocks[b]? = some (some k.vals)) ∧
      (¬ Remains (Spec.runE ⟨[], []⟩ ops).1 k → m.blocks[b]? = some none)) ∧
    m.blocks.length = (Spec.runE ⟨[], []⟩ ops).1.blocks.length := by
  obtain ⟨m, r, inv⟩ := Inv.empty.runE h
  exact ⟨m, r, inv.lifetime⟩

/-- An empty part is asked for, and then the only reference which the program knows about is dropped: the data stays. Another
`gutil_ints_unref` would release it. -/
example : LegalE ⟨[], []⟩ [.alloc [7], .take 0 1, .part 0 0 0, .unref 0, .unref 0] ∧
    (∃ m, Ints.run ⟨[], []⟩ [.alloc [7], .take 0 1, .part 0 0 0, .unref 0]
      = .ok (m, [.data 0 1, .ints (some 0), .ints none, .none]) ∧ m.blocks = [some [7]]) ∧
    (∃ m, Ints.run ⟨[], []⟩ [.alloc [7], .take 0 1, .part 0 0 0, .unref 0, .unref 0]
      = .ok (m, [.data 0 1, .ints (some 0), .ints none, .none, .none]) ∧ m.blocks = [none]) := by
  refine ⟨⟨trivial, ⟨_, rfl, rfl, by decide⟩, ⟨⟨_, rfl, by decide⟩, by decide⟩, ⟨_, rfl, by decide⟩, ⟨_, rfl, by decide⟩, trivial⟩,
    ⟨_, rfl, rfl⟩, ⟨_, rfl, rfl⟩⟩

end Verif.Ints
