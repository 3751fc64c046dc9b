import Verif.Proof.IntArrayHist

/-!
# C82, C118: histories of int arrays
-/

namespace Verif.IntArray
open Verif.C
open Verif.IntArray.Spec (Op Out Step Run Pre Allowed given)

/-! ## C82 -/

/-- **C82** As long as nothing is inserted past the end and the count isn't increased (and what's sorted is as in C48), every element of the array is one of those
which have been put there: after any number of any calls, whatever the size of the array. -/
theorem C82_partial (gsort : (Option Val → Option Val → M Int) → Arr → Arr) (hs : SortContract gsort) (mode : Mode) (l : List Val) (ops : List Op)
    (os : List Out) (a : Option Arr) (ht : AllTight gsort mode (I l) ops) (hr : run gsort mode (I l) ops = .ok (os, a)) :
    ∀ e ∈ a.getD [], ∃ x, e = some x ∧ (x ∈ l ∨ ∃ op ∈ ops, x ∈ given op) := by
  have h := run_good hs (G := l ++ ops.flatMap given) ops (I l) a os (good_map (fun x hx => List.mem_append_left _ hx)) ht
    (fun x hx => List.mem_append_right _ hx) hr
  intro e he
  obtain ⟨x, h1, h2⟩ := h e he
  refine ⟨x, h1, ?_⟩
  rcases List.mem_append.mp h2 with h2 | h2
  · exact Or.inl h2
  · exact Or.inr (List.mem_flatMap.mp h2)

/-- **C82** It's exactly those calls which make uninitialised elements: if all elements are initialised then a call which inserts something past the end, or increases the
count, leaves one which isn't. (Unless the array can't be made so large.) -/
theorem C82_exactly (gsort : (Option Val → Option Val → M Int) → Arr → Arr) (mode : Mode) (l : List Val) (op : Op) (o : Out) (a : Option Arr)
    (hr : exec gsort mode (I l) op = .ok (o, a)) (h : match op with
      | .insert pos _ => l.length < pos
      | .insertVals pos v => l.length < pos ∧ v ≠ []
      | .setCount n => l.length < n
      | _ => False) : none ∈ a.getD [] := by
  have size : ∀ (b c : Arr) (n : Nat), gSetSize b n = .ok c → b.length < n → none ∈ c := by
    intro b c n e hn
    unfold gSetSize at e
    split at e
    · cases e
      exact List.mem_append_right _ (List.mem_replicate.mpr ⟨by omega, rfl⟩)
    · cases e
  have vals : ∀ (b c : Arr) (n : Nat) (v : List Val), gInsertVals b n v = .ok c → b.length < n → v ≠ [] → none ∈ c := by
    intro b c n v e hn hv
    unfold gInsertVals at e
    rw [if_neg (by simpa using hv), if_pos (by omega)] at e
    cases h1 : gSetSize b n with
    | error u => rw [h1] at e; cases e
    | ok d =>
      rw [h1, ok_bind] at e
      unfold gAppendVals at e
      split at e
      · cases e
        exact List.mem_append_left _ (size b d n h1 hn)
      · cases e
  have hv : ∀ (pos : Nat) (v : List Val), l.length < pos → v ≠ [] → (do let a ← insertVals (I l) pos v; .ok (Out.none, a) : M (Out × Option Arr)) = .ok (o, a) → none ∈ a.getD [] := by
    intro pos v h1 h2 e
    show none ∈ a.getD []
    unfold insertVals I at e
    dsimp only at e
    cases h3 : gInsertVals (l.map some) pos v with
    | error u => rw [h3] at e; cases e
    | ok d =>
      rw [h3] at e
      cases e
      exact vals _ d pos v h3 (by simpa using h1) h2
  cases op with
  | insert pos x => exact hv pos [x] h (by simp) hr
  | insertVals pos v => exact hv pos v h.1 h.2 hr
  | setCount n =>
    dsimp only [exec] at hr
    unfold setCount I at hr
    dsimp only at hr
    cases h3 : gSetSize (l.map some) n with
    | error u => rw [h3] at hr; cases hr
    | ok d =>
      rw [h3] at hr
      cases hr
      exact size _ d n h3 (by simpa using h)
  | _ => exact absurd h (by simp)

example : exec Strv.insertionSort .strict (I [5]) (.insertVals 2 [7]) = .ok (.none, some [some 5, none, some 7]) := by decide +kernel

theorem allTight_cons {gsort : (Option Val → Option Val → M Int) → Arr → Arr} {mode : Mode} {a a' : Option Arr} {op : Op} {ops : List Op} {o : Out} (h : Tight a op)
    (e : exec gsort mode a op = .ok (o, a')) (h2 : AllTight gsort mode a' ops) : AllTight gsort mode a (op :: ops) := by
  refine ⟨h, fun o2 b e2 => ?_⟩
  rw [e] at e2
  injection e2 with e2; injection e2 with _ e2; subst e2
  exact h2

example : AllTight Strv.insertionSort .strict (I [5, 1]) [.append 1, .insertVals 1 [2, 3], .removeAllFast 1, .setCount 1] ∧
    run Strv.insertionSort .strict (I [5, 1]) [.append 1, .insertVals 1 [2, 3], .removeAllFast 1, .setCount 1] = .ok ([.none, .none, .count 2, .none], I [5]) := by
  refine ⟨?_, by decide +kernel⟩
  refine allTight_cons (o := .none) (a' := I [5, 1, 1]) trivial (by decide +kernel) ?_
  refine allTight_cons (o := .none) (a' := I [5, 2, 3, 1, 1]) (by show 1 ≤ 3; omega) (by decide +kernel) ?_
  refine allTight_cons (o := .count 2) (a' := I [5, 2, 3]) trivial (by decide +kernel) ?_
  exact allTight_cons (o := .none) (a' := I [5]) (by show 1 ≤ 3; omega) (by decide +kernel) trivial

/-! ## C118 -/

theorem step_keeps_size {l l' : List Val} {op : Op} {o : Out} (h : l.length ≤ 2 ^ 31) (hp : Pre l op) (hs : Step l op o l') : l'.length ≤ 2 ^ 31 := by
  cases op
  case append x =>
    have hp : l.length < 2 ^ 31 := hp
    rw [hs.2]; simp; omega
  case appendVals v =>
    have hp : l.length + v.length ≤ 2 ^ 31 := hp
    rw [hs.2]; simp; omega
  case prepend x =>
    have hp : l.length < 2 ^ 31 := hp
    rw [hs.2]; simp; omega
  case prependVals v =>
    have hp : l.length + v.length ≤ 2 ^ 31 := hp
    rw [hs.2]; simp; omega
  case insert pos x =>
    have hp : pos ≤ l.length ∧ l.length < 2 ^ 31 := hp
    rw [hs.2]; simp; omega
  case insertVals pos v =>
    have hp : pos ≤ l.length ∧ l.length + v.length ≤ 2 ^ 31 := hp
    rw [hs.2]; simp; omega
  case setCount n =>
    have hp : n ≤ l.length := hp
    rw [hs.2]; simp; omega
  case find x => rw [hs.1]; exact h
  case contains x => rw [hs.1]; exact h
  case remove x => rw [hs.2]; exact Nat.le_trans List.length_erase_le h
  case removeFast x => rw [hs.2.length_eq]; exact Nat.le_trans List.length_erase_le h
  case removeAll x => rw [hs.2]; exact Nat.le_trans (List.length_filter_le _ _) h
  case removeAllFast x => rw [hs.2.length_eq]; exact Nat.le_trans (List.length_filter_le _ _) h
  case removeIndex pos => rw [hs.2]; exact Nat.le_trans (List.length_eraseIdx_le _ _) h
  case removeIndexFast pos => rw [hs.2.length_eq]; exact Nat.le_trans (List.length_eraseIdx_le _ _) h
  case removeRange pos count =>
    have hp : pos + count < 2 ^ 32 := hp
    rw [hs.2]; simp; omega
  case sortAscending => rw [hs.2.1.length_eq]; exact h
  case sortDescending => rw [hs.2.1.length_eq]; exact h

theorem exec_step (gsort : (Option Val → Option Val → M Int) → Arr → Arr) (hs : SortContract gsort) (mode : Mode) {l : List Val} {op : Op} (h : l.length ≤ 2 ^ 31)
    (hp : Pre l op) : ∃ o l', exec gsort mode (I l) op = .ok (o, I l') ∧ Step l op o l' := by
  cases op <;> rw [exec]
  case append x =>
    have hp : l.length < 2 ^ 31 := hp
    rw [(C45_add l [] x (by simp; omega) (by omega)).1, ok_bind]; exact ⟨_, _, rfl, rfl, rfl⟩
  case appendVals v =>
    have hp : l.length + v.length ≤ 2 ^ 31 := hp
    by_cases hv : v = []
    · subst hv; rw [(C45_add l [] 0 (by simp; omega) (by omega)).2.1, ok_bind]; exact ⟨_, _, rfl, rfl, rfl⟩
    · rw [(C45_add l v 0 (by omega) (by omega)).2.1, ok_bind]; exact ⟨_, _, rfl, rfl, rfl⟩
  case prepend x =>
    have hp : l.length < 2 ^ 31 := hp
    rw [(C45_add l [] x (by simp; omega) (by omega)).2.2.1, ok_bind]; exact ⟨_, _, rfl, rfl, rfl⟩
  case prependVals v =>
    have hp : l.length + v.length ≤ 2 ^ 31 := hp
    rw [(C45_add l v 0 (by omega) (by omega)).2.2.2.1, ok_bind]; exact ⟨_, _, rfl, rfl, rfl⟩
  case insert pos x =>
    have hp : pos ≤ l.length ∧ l.length < 2 ^ 31 := hp
    rw [((C45_add l [] x (by simp; omega) (by omega)).2.2.2.2 pos hp.1).1, ok_bind]; exact ⟨_, _, rfl, rfl, rfl⟩
  case insertVals pos v =>
    have hp : pos ≤ l.length ∧ l.length + v.length ≤ 2 ^ 31 := hp
    rw [((C45_add l v 0 (by omega) (by omega)).2.2.2.2 pos hp.1).2, ok_bind]; exact ⟨_, _, rfl, rfl, rfl⟩
  case setCount n =>
    have hp : n ≤ l.length := hp
    rw [(C45_remove l (by omega)).1 n hp, ok_bind]; exact ⟨_, _, rfl, rfl, rfl⟩
  case find x =>
    rcases find_cases l h x with ⟨hn, e⟩ | ⟨k, hk, h1, h2, e⟩
    · rw [e, ok_bind]; exact ⟨_, _, rfl, rfl, Or.inl ⟨rfl, hn⟩⟩
    · rw [e, ok_bind]; exact ⟨_, _, rfl, rfl, Or.inr ⟨k, rfl, h1, h2⟩⟩
  case contains x => rw [(C45_find_partial l h x).1, ok_bind]; exact ⟨_, _, rfl, rfl, rfl⟩
  case remove x => rw [(C46_remove_partial l h x).1, ok_bind]; exact ⟨_, _, rfl, rfl, rfl⟩
  case removeFast x =>
    obtain ⟨l', e, p⟩ := (C46_remove_partial l h x).2.1
    rw [e, ok_bind]; exact ⟨_, _, rfl, rfl, p⟩
  case removeAll x => rw [(C46_remove_partial l h x).2.2.1, ok_bind]; exact ⟨_, _, rfl, rfl, rfl⟩
  case removeAllFast x =>
    obtain ⟨l', e, p⟩ := (C46_remove_partial l h x).2.2.2
    rw [e, ok_bind]; exact ⟨_, _, rfl, rfl, p⟩
  case removeIndex pos => rw [(C45_remove l (by omega)).2.1 pos, ok_bind]; exact ⟨_, _, rfl, rfl, rfl⟩
  case removeIndexFast pos =>
    obtain ⟨l', e, p, _⟩ := (C45_remove l (by omega)).2.2 pos hp
    rw [e, ok_bind]; exact ⟨_, _, rfl, rfl, p⟩
  case removeRange pos count =>
    have hp : pos + count < 2 ^ 32 := hp
    rw [C47_range_partial l (by omega) pos count hp, ok_bind]; exact ⟨_, _, rfl, rfl, rfl⟩
  case sortAscending =>
    obtain ⟨⟨l', e, p, w⟩, _⟩ := C48_sort_partial gsort hs mode l hp
    rw [e]; exact ⟨_, _, rfl, rfl, p, w⟩
  case sortDescending =>
    obtain ⟨_, ⟨l', e, p, w⟩, _⟩ := C48_sort_partial gsort hs mode l hp
    rw [e]; exact ⟨_, _, rfl, rfl, p, w⟩

/-- **C118** Any sequence of calls following the rules does to the array what it does to a list, and the calls return what's true of the list. -/
theorem C118_list (gsort : (Option Val → Option Val → M Int) → Arr → Arr) (hs : SortContract gsort) (mode : Mode) (ops : List Op) :
    ∀ l : List Val, l.length ≤ 2 ^ 31 → Allowed l ops → ∃ os l', run gsort mode (I l) ops = .ok (os, I l') ∧ Run l ops os l' := by
  induction ops with
  | nil => intro l _ _; exact ⟨[], l, rfl, .nil⟩
  | cons op ops ih =>
    intro l h ha
    obtain ⟨o, l', e, st⟩ := exec_step gsort hs mode h ha.1
    obtain ⟨os, l'', e2, r⟩ := ih l' (step_keeps_size h ha.1 st) (ha.2 o l' st)
    refine ⟨o :: os, l'', ?_, .cons st r⟩
    rw [run, e, ok_bind]
    dsimp only
    rw [e2, ok_bind]

example : run Strv.insertionSort .strict (I []) [.appendVals [3, 1, 3], .sortAscending, .find 3] = .ok ([.none, .none, .int 1], I [1, 3, 3]) := by decide +kernel

theorem pre_appendVals {l v : List Val} (h : l.length + v.length ≤ 2 ^ 31) : Pre l (.appendVals v) := h

theorem pre_sort {l : List Val} (h : ∀ x ∈ l, ∀ y ∈ l, x.toInt - y.toInt < 2 ^ 31) : Pre l .sortAscending := h

theorem pre_find (l : List Val) (x : Val) : Pre l (.find x) := trivial

theorem allowed_cons {l : List Val} {op : Op} {ops : List Op} (h1 : Pre l op) (h2 : ∀ o l', Step l op o l' → Allowed l' ops) : Allowed l (op :: ops) := ⟨h1, h2⟩

example : Allowed [] [.appendVals [3, 1, 3], .sortAscending, .find 3] := by
  refine allowed_cons (pre_appendVals (by simp)) ?_
  rintro o l' ⟨-, rfl⟩
  have h2 : ∀ x ∈ ([3, 1, 3] : List Val), ∀ y ∈ ([3, 1, 3] : List Val), x.toInt - y.toInt < 2 ^ 31 := by
    intro x hx y hy
    simp only [List.mem_cons, List.not_mem_nil, or_false] at hx hy
    rcases hx with rfl | rfl | rfl <;> rcases hy with rfl | rfl | rfl <;> decide
  exact allowed_cons (pre_sort h2) (fun o l' _ => allowed_cons (pre_find _ _) (fun _ _ _ => trivial))

end Verif.IntArray
