import Verif.Proof.HistoryExact
import Verif.Spec.HistoryQuiet

/-!
# Calls which only look at the history, proof
-/

namespace Verif.History
open Spec

/-- There's no difference from the time `t` on. -/
def Alike (I t : Int) (l m : List Sample) : Prop := ∀ now, t ≤ now → live I now l = live I now m

theorem live_again (I t now : Int) (h : t ≤ now) (l : List Sample) : live I now (live I t l) = live I now l := by
  unfold live
  rw [List.filter_filter]
  apply List.filter_congr
  intro s _
  simp only [Bool.and_eq_left_iff_imp, decide_eq_true_eq]
  omega

theorem alike_refl (I t : Int) (l : List Sample) : Alike I t l l := fun _ _ => rfl

theorem alike_live {I t : Int} {l m : List Sample} (h : Alike I t l m) (now : Int) (hn : t ≤ now) : Alike I now (live I now l) m := by
  intro x hx
  rw [live_again I now x hx]
  exact h x (by omega)

theorem alike_later {I t t' : Int} {l m : List Sample} (h : Alike I t l m) (hn : t ≤ t') : Alike I t' l m :=
  fun x hx => h x (by omega)

theorem skips_tail {k : Bool} {keep : List Bool} {op : Op} {ops : List Op} (h : Skips (k :: keep) (op :: ops)) : Skips keep ops :=
  ⟨by simpa using h.1, fun i o h1 h2 => h.2 (i + 1) o (by simpa using h1) (by simpa using h2)⟩

/-- The clock after the call -/
def after (t : Int) (op : Op) : Int := op.now?.getD t

theorem mono_head {t : Int} {op : Op} {ops : List Op} (h : Monotonic t (op :: ops)) : t ≤ after t op ∧ Monotonic (after t op) ops := by
  unfold Monotonic at h
  unfold after
  cases e : op.now? with
  | none => rw [e] at h; exact ⟨Int.le_refl _, h⟩
  | some now => rw [e] at h; exact h

theorem alike_step {n : Nat} {I t : Int} {l m : List Sample} (h : Alike I t l m) (op : Op) (hm : t ≤ after t op) :
    result n I l op = result n I m op ∧ Alike I (after t op) (next n I l op) (next n I m op) ∧ (OpFits n I l op ↔ OpFits n I m op) := by
  cases op with
  | clear => exact ⟨rfl, alike_refl _ _ _, Iff.rfl⟩
  | size now =>
    have e := h now hm
    refine ⟨?_, ?_, Iff.rfl⟩
    · simp only [result, e]
    · simp only [next, e]; exact alike_refl _ _ _
  | interval now =>
    have e := h now hm
    refine ⟨?_, ?_, Iff.rfl⟩
    · simp only [result, e]
    · simp only [next, e]; exact alike_refl _ _ _
  | add v now =>
    have e := h now hm
    refine ⟨?_, ?_, ?_⟩
    · simp only [result, e]
    · simp only [next, e]; exact alike_refl _ _ _
    · simp only [OpFits, e]
  | median d now =>
    have e := h now hm
    refine ⟨?_, ?_, ?_⟩
    · simp only [result, e]
    · simp only [next, e]; exact alike_refl _ _ _
    · simp only [OpFits, e]

theorem alike_skip {n : Nat} {I t : Int} {l m : List Sample} (h : Alike I t l m) (op : Op) (hl : op.looks = true) (hm : t ≤ after t op) :
    Alike I (after t op) (next n I l op) m := by
  cases op with
  | clear => cases hl
  | add v now => cases hl
  | size now => exact alike_live h now hm
  | interval now => exact alike_live h now hm
  | median d now => exact alike_live h now hm

theorem pick_results {n : Nat} {I : Int} : ∀ (ops : List Op) (keep : List Bool) (t : Int) (l m : List Sample), Skips keep ops → Monotonic t ops →
    Alike I t l m → pick keep (results n I l ops) = results n I m (pick keep ops) ∧
      Alike I (clock t ops) (contents n I l ops) (contents n I m (pick keep ops)) ∧
      (RunFits n I l ops → RunFits n I m (pick keep ops)) := by
  intro ops
  induction ops with
  | nil =>
    intro keep t l m hs _ ha
    have : keep = [] := List.length_eq_zero_iff.mp hs.1
    subst this
    exact ⟨rfl, ha, id⟩
  | cons op ops ih =>
    intro keep t l m hs hm ha
    cases keep with
    | nil => have := hs.1; simp at this
    | cons k keep =>
      obtain ⟨m1, m2⟩ := mono_head hm
      cases k with
      | true =>
        obtain ⟨s1, s2, s3⟩ := alike_step (n := n) ha op m1
        obtain ⟨i1, i2, i3⟩ := ih keep (after t op) _ _ (skips_tail hs) m2 s2
        refine ⟨?_, i2, fun hf => ⟨s3.mp hf.1, i3 hf.2⟩⟩
        show result n I l op :: pick keep (results n I (next n I l op) ops) = result n I m op :: results n I (next n I m op) (pick keep ops)
        rw [s1, i1]
      | false =>
        have hl := hs.2 0 op rfl rfl
        obtain ⟨i1, i2, i3⟩ := ih keep (after t op) _ m (skips_tail hs) m2 (alike_skip (n := n) ha op hl m1)
        exact ⟨i1, i2, fun hf => i3 hf.2⟩

theorem pick_sub {α : Type} : ∀ (keep : List Bool) (l : List α) (x : α), x ∈ pick keep l → x ∈ l := by
  intro keep
  induction keep with
  | nil => intro l x h; cases h
  | cons k keep ih =>
    intro l x h
    cases l with
    | nil => cases h
    | cons y l =>
      unfold pick at h
      split at h
      · rcases List.mem_cons.mp h with rfl | h
        · simp
        · exact List.mem_cons_of_mem _ (ih l x h)
      · exact List.mem_cons_of_mem _ (ih l x h)

theorem clockOk_pick {I : Int} {ops : List Op} (keep : List Bool) (h : ClockOk I ops) : ClockOk I (pick keep ops) := by
  obtain ⟨lo, h1, h2⟩ := h
  exact ⟨lo, h1, fun op hop => h2 op (pick_sub keep ops op hop)⟩

theorem sizeOk_pick {n : Nat} {ops : List Op} (keep : List Bool) (h : SizeOk n ops) : SizeOk n (pick keep ops) :=
  h.imp id (fun q op hop => q op (pick_sub keep ops op hop))

theorem intValues_pick {ops : List Op} (keep : List Bool) (h : IntValues ops) : IntValues (pick keep ops) :=
  fun v now hop => h v now (pick_sub keep ops _ hop)

end Verif.History
