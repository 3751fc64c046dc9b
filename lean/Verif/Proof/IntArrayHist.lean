import Verif.Model.IntArrayHist
import Verif.Props.IntArray

namespace Verif.IntArray
open Verif.C
open Verif.IntArray.Spec (Op Out Step Run Pre Allowed given)

/-- Everything in the array is initialised, and it's one of `G`. -/
def Good (G : List Val) (a : Arr) : Prop := ∀ e ∈ a, ∃ x, e = some x ∧ x ∈ G

theorem good_map {G l : List Val} (h : ∀ x ∈ l, x ∈ G) : Good G (l.map some) := by
  intro e he
  obtain ⟨x, hx, rfl⟩ := List.mem_map.mp he
  exact ⟨x, rfl, h x hx⟩

theorem good_append {G : List Val} {a b : Arr} (h1 : Good G a) (h2 : Good G b) : Good G (a ++ b) := by
  intro e he
  rcases List.mem_append.mp he with h | h
  · exact h1 e h
  · exact h2 e h

theorem good_sub {G : List Val} {a b : Arr} (h : Good G a) (hs : ∀ e ∈ b, e ∈ a) : Good G b := fun e he => h e (hs e he)

theorem good_more {G G' : List Val} {a : Arr} (h : Good G a) (hs : ∀ x ∈ G, x ∈ G') : Good G' a := by
  intro e he
  obtain ⟨x, h1, h2⟩ := h e he
  exact ⟨x, h1, hs x h2⟩

theorem good_I {G : List Val} {a : Arr} (h : Good G a) : ∃ l : List Val, a = l.map some ∧ ∀ x ∈ l, x ∈ G := by
  induction a with
  | nil => exact ⟨[], rfl, by simp⟩
  | cons e t ih =>
    obtain ⟨l, h1, h2⟩ := ih (fun e he => h e (List.mem_cons_of_mem _ he))
    obtain ⟨x, hx, hg⟩ := h e (by simp)
    refine ⟨x :: l, by rw [hx, h1, List.map_cons], ?_⟩
    intro y hy
    rcases List.mem_cons.mp hy with rfl | hy
    · exact hg
    · exact h2 y hy

/-- The same for an array, or `NULL` -/
def GoodO (G : List Val) (a : Option Arr) : Prop := Good G (a.getD [])

theorem gAppend_good {G : List Val} {a a' : Arr} {v : List Val} (h : Good G a) (hv : ∀ x ∈ v, x ∈ G) (e : gAppendVals a v = .ok a') : Good G a' := by
  unfold gAppendVals at e
  split at e
  · injection e with e; subst e; exact good_append h (good_map hv)
  · cases e

theorem gPrepend_good {G : List Val} {a a' : Arr} {v : List Val} (h : Good G a) (hv : ∀ x ∈ v, x ∈ G) (e : gPrependVals a v = .ok a') : Good G a' := by
  unfold gPrependVals at e
  split at e
  · injection e with e; subst e; exact good_append (good_map hv) h
  · cases e

theorem gSetSize_good {G : List Val} {a a' : Arr} {n : Nat} (h : Good G a) (hn : n ≤ a.length) (e : gSetSize a n = .ok a') : Good G a' := by
  unfold gSetSize at e
  split at e
  · injection e with e
    subst e
    rw [show n - a.length = 0 by omega, List.replicate_zero, List.append_nil]
    exact good_sub h (fun e he => List.mem_of_mem_take he)
  · cases e

theorem gInsert_good {G : List Val} {a a' : Arr} {pos : Nat} {v : List Val} (h : Good G a) (hv : ∀ x ∈ v, x ∈ G) (hp : pos ≤ a.length) (e : gInsertVals a pos v = .ok a') :
    Good G a' := by
  unfold gInsertVals at e
  split at e
  · injection e with e; subst e; exact h
  · split at e
    · cases hs : gSetSize a pos with
      | error u => rw [hs] at e; cases e
      | ok b =>
        rw [hs, ok_bind] at e
        exact gAppend_good (gSetSize_good h hp hs) hv e
    · split at e
      · injection e with e
        subst e
        exact good_append (good_append (good_sub h (fun e he => List.mem_of_mem_take he)) (good_map hv)) (good_sub h (fun e he => List.mem_of_mem_drop he))
      · cases e

theorem gRemoveIndex_good {G : List Val} {a a' : Arr} {i : Nat} (h : Good G a) (e : gRemoveIndex a i = .ok a') : Good G a' := by
  unfold gRemoveIndex at e
  split at e
  · injection e with e; subst e; exact good_sub h (fun e he => List.mem_of_mem_eraseIdx he)
  · cases e

theorem gRemoveIndexFast_good {G : List Val} {a a' : Arr} {i : Nat} (h : Good G a) (e : gRemoveIndexFast a i = .ok a') : Good G a' := by
  unfold gRemoveIndexFast at e
  split at e
  · injection e with e
    subst e
    refine good_sub h (fun e he => ?_)
    have he := List.mem_of_mem_take he
    split at he
    · rcases List.mem_or_eq_of_mem_set he with he | rfl
      · exact he
      · exact List.getElem_mem _
    · exact he
  · cases e

theorem gRemoveRange_good {G : List Val} {a a' : Arr} {i n : Nat} (h : Good G a) (e : gRemoveRange a i n = .ok a') : Good G a' := by
  unfold gRemoveRange at e
  split at e
  · injection e with e
    subst e
    exact good_append (good_sub h (fun e he => List.mem_of_mem_take he)) (good_sub h (fun e he => List.mem_of_mem_drop he))
  · cases e

theorem onArray_good {G : List Val} {f : Arr → Nat → M Arr} (hf : ∀ a a' i, Good G a → f a i = .ok a' → Good G a') {a a' : Option Arr} {i : Nat} (h : GoodO G a)
    (e : onArray f a i = .ok a') : GoodO G a' := by
  cases a with
  | none => cases e
  | some a =>
    rw [onArray] at e
    cases hs : f a i with
    | error u => rw [hs] at e; cases e
    | ok b => rw [hs, ok_bind] at e; injection e with e; subst e; exact hf a b i h hs

theorem remove_good {G : List Val} {a a' : Option Arr} {x : Val} {b : Bool} (h : GoodO G a) (e : remove a x = .ok (a', b)) : GoodO G a' := by
  unfold remove at e
  cases hp : find a x with
  | error u => rw [hp] at e; cases e
  | ok pos =>
    rw [hp, ok_bind] at e
    split at e
    · cases hs : onArray gRemoveIndex a pos.toNat with
      | error u => rw [hs] at e; cases e
      | ok c => rw [hs, ok_bind] at e; injection e with e; injection e with e1 e2; subst e1; exact onArray_good (fun _ _ _ => gRemoveIndex_good) h hs
    · injection e with e; injection e with e1 e2; subst e1; exact h

theorem removeFast_good {G : List Val} {a a' : Option Arr} {x : Val} {b : Bool} (h : GoodO G a) (e : removeFast a x = .ok (a', b)) : GoodO G a' := by
  unfold removeFast at e
  cases hp : find a x with
  | error u => rw [hp] at e; cases e
  | ok pos =>
    rw [hp, ok_bind] at e
    split at e
    · cases hs : onArray gRemoveIndexFast a pos.toNat with
      | error u => rw [hs] at e; cases e
      | ok c => rw [hs, ok_bind] at e; injection e with e; injection e with e1 e2; subst e1; exact onArray_good (fun _ _ _ => gRemoveIndexFast_good) h hs
    · injection e with e; injection e with e1 e2; subst e1; exact h

theorem removeLoop_good {G : List Val} {rm : Option Arr → M (Option Arr × Bool)} (hr : ∀ a a' b, GoodO G a → rm a = .ok (a', b) → GoodO G a') :
    ∀ (fuel : Nat) (a a' : Option Arr) (n k : Nat), GoodO G a → removeLoop rm fuel a n = .ok (a', k) → GoodO G a' := by
  intro fuel
  induction fuel with
  | zero => intro a a' n k _ e; cases e
  | succ fuel ih =>
    intro a a' n k h e
    rw [removeLoop] at e
    cases hp : rm a with
    | error u => rw [hp] at e; cases e
    | ok v =>
      obtain ⟨b, found⟩ := v
      rw [hp, ok_bind] at e
      dsimp only at e
      have hb := hr a b found h hp
      split at e
      · exact ih _ _ _ _ hb e
      · injection e with e; injection e with e1 e2; subst e1; exact hb

theorem lift_good {G : List Val} {x : M Arr} {a' : Option Arr} (hx : ∀ a, x = .ok a → Good G a)
    (e : (do let a ← x; .ok (some a) : M (Option Arr)) = .ok a') : GoodO G a' := by
  cases x with
  | error u => cases e
  | ok a => rw [ok_bind] at e; injection e with e; subst e; exact hx a rfl

theorem step_good {gsort : (Option Val → Option Val → M Int) → Arr → Arr} (hs : SortContract gsort) {mode : Mode} {G : List Val} {a a' : Option Arr} {op : Op} {o : Out}
    (h : GoodO G a) (ht : Tight a op) (hg : ∀ x ∈ given op, x ∈ G) (e : exec gsort mode a op = .ok (o, a')) : GoodO G a' := by
  have out : ∀ {x : M (Option Arr)} {o' : Out}, (do let a ← x; .ok (o', a) : M (Out × Option Arr)) = .ok (o, a') → x = .ok a' := by
    intro x o' e
    cases x with
    | error u => cases e
    | ok b => rw [ok_bind] at e; injection e with e; injection e with _ e; rw [e]
  cases op with
  | append x =>
    have e := out e
    cases a with
    | none => injection e with e; subst e; exact h
    | some a => exact lift_good (fun b hb => gAppend_good h hg hb) e
  | appendVals v =>
    have e := out e
    cases a with
    | none => injection e with e; subst e; exact h
    | some a => exact lift_good (fun b hb => gAppend_good h hg hb) e
  | prepend x =>
    have e := out e
    cases a with
    | none => injection e with e; subst e; exact h
    | some a => exact lift_good (fun b hb => gPrepend_good h hg hb) e
  | prependVals v =>
    have e := out e
    cases a with
    | none => injection e with e; subst e; exact h
    | some a => exact lift_good (fun b hb => gPrepend_good h hg hb) e
  | insert pos x =>
    have e := out e
    cases a with
    | none => injection e with e; subst e; exact h
    | some a => exact lift_good (fun b hb => gInsert_good h hg ht hb) e
  | insertVals pos v =>
    have e := out e
    cases a with
    | none => injection e with e; subst e; exact h
    | some a => exact lift_good (fun b hb => gInsert_good h hg ht hb) e
  | setCount n =>
    have e := out e
    cases a with
    | none => injection e with e; subst e; exact h
    | some a => exact lift_good (fun b hb => gSetSize_good h ht hb) e
  | find x =>
    rw [exec] at e
    cases hp : find a x with
    | error u => rw [hp] at e; cases e
    | ok i => rw [hp, ok_bind] at e; injection e with e; injection e with _ e; subst e; exact h
  | contains x =>
    rw [exec] at e
    cases hp : contains a x with
    | error u => rw [hp] at e; cases e
    | ok i => rw [hp, ok_bind] at e; injection e with e; injection e with _ e; subst e; exact h
  | remove x =>
    rw [exec] at e
    cases hp : remove a x with
    | error u => rw [hp] at e; cases e
    | ok v => obtain ⟨b, f⟩ := v; rw [hp, ok_bind] at e; injection e with e; injection e with _ e; subst e; exact remove_good h hp
  | removeFast x =>
    rw [exec] at e
    cases hp : removeFast a x with
    | error u => rw [hp] at e; cases e
    | ok v => obtain ⟨b, f⟩ := v; rw [hp, ok_bind] at e; injection e with e; injection e with _ e; subst e; exact removeFast_good h hp
  | removeAll x =>
    rw [exec] at e
    cases hp : removeAll a x with
    | error u => rw [hp] at e; cases e
    | ok v =>
      obtain ⟨b, f⟩ := v; rw [hp, ok_bind] at e; injection e with e; injection e with _ e; subst e
      exact removeLoop_good (fun _ _ _ => remove_good) _ _ _ _ _ h hp
  | removeAllFast x =>
    rw [exec] at e
    cases hp : removeAllFast a x with
    | error u => rw [hp] at e; cases e
    | ok v =>
      obtain ⟨b, f⟩ := v; rw [hp, ok_bind] at e; injection e with e; injection e with _ e; subst e
      exact removeLoop_good (fun _ _ _ => removeFast_good) _ _ _ _ _ h hp
  | removeIndex pos =>
    have e := out e
    cases a with
    | none => injection e with e; subst e; exact h
    | some a =>
      rw [removeIndex] at e
      split at e
      · exact lift_good (fun b hb => gRemoveIndex_good h hb) e
      · injection e with e; subst e; exact h
  | removeIndexFast pos =>
    have e := out e
    cases a with
    | none => injection e with e; subst e; exact h
    | some a => exact lift_good (fun b hb => gRemoveIndexFast_good h hb) e
  | removeRange pos count =>
    have e := out e
    cases a with
    | none => injection e with e; subst e; exact h
    | some a =>
      rw [removeRange] at e
      split at e
      · exact lift_good (fun b hb => gRemoveRange_good h hb) e
      · injection e with e; subst e; exact h
  | sortAscending =>
    injection e with e; injection e with _ e; subst e
    cases a with
    | none => exact h
    | some a =>
      obtain ⟨l, h1, h2⟩ := good_I h
      have h1 : a = l.map some := h1
      subst h1
      obtain ⟨⟨l', h3, h4, _⟩, _⟩ := C48_sort_partial gsort hs mode l (fun x hx y hy => ht x y (List.mem_map_of_mem hx) (List.mem_map_of_mem hy))
      rw [show (some (l.map some) : Option Arr) = I l from rfl, h3]
      exact good_map (fun x hx => h2 x (h4.mem_iff.mp hx))
  | sortDescending =>
    injection e with e; injection e with _ e; subst e
    cases a with
    | none => exact h
    | some a =>
      obtain ⟨l, h1, h2⟩ := good_I h
      have h1 : a = l.map some := h1
      subst h1
      obtain ⟨_, ⟨l', h3, h4, _⟩, _⟩ := C48_sort_partial gsort hs mode l (fun x hx y hy => ht x y (List.mem_map_of_mem hx) (List.mem_map_of_mem hy))
      rw [show (some (l.map some) : Option Arr) = I l from rfl, h3]
      exact good_map (fun x hx => h2 x (h4.mem_iff.mp hx))

theorem run_good {gsort : (Option Val → Option Val → M Int) → Arr → Arr} (hs : SortContract gsort) {mode : Mode} {G : List Val} (ops : List Op) :
    ∀ (a a' : Option Arr) (os : List Out), GoodO G a → AllTight gsort mode a ops → (∀ x ∈ ops.flatMap given, x ∈ G) → run gsort mode a ops = .ok (os, a') → GoodO G a' := by
  induction ops with
  | nil => intro a a' os h _ _ e; injection e with e; injection e with _ e; subst e; exact h
  | cons op ops ih =>
    intro a a' os h ht hg e
    rw [run] at e
    cases he : exec gsort mode a op with
    | error u => rw [he] at e; cases e
    | ok v =>
      obtain ⟨o, b⟩ := v
      rw [he, ok_bind] at e
      dsimp only at e
      cases hr : run gsort mode b ops with
      | error u => rw [hr] at e; cases e
      | ok w =>
        obtain ⟨os', c⟩ := w
        rw [hr, ok_bind] at e
        injection e with e; injection e with _ e; subst e
        rw [List.flatMap_cons] at hg
        exact ih b c os' (step_good hs h ht.1 (fun x hx => hg x (List.mem_append_left _ hx)) he) (ht.2 o b he) (fun x hx => hg x (List.mem_append_right _ hx)) hr

end Verif.IntArray
