import Verif.Props.StrvHist
import Verif.Props.SortLaws

/-!
# Only the strings of a string vector matter: C163
-/

namespace Verif.Strv
open Verif.C Spec

/-- Is it a binary search? -/
def _root_.Verif.Strv.Spec.Op.searches : Op → Bool
  | .bsearch _ _ _ => true
  | _ => false

theorem first_same {l : List Str} {t : Str} {k k' : Nat} (h : l[k]? = some t) (hn : t ∉ l.take k) (h' : l[k']? = some t) (hn' : t ∉ l.take k') : k = k' := by
  have key : ∀ {a b : Nat}, l[a]? = some t → t ∉ l.take b → ¬ a < b := fun {a b} ha hb hlt =>
    hb (List.mem_of_getElem? (i := a) (by rw [List.getElem?_take_of_lt hlt]; exact ha))
  have := key h hn'
  have := key h' hn
  omega

theorem last_same {l : List Str} {t : Str} {k k' : Nat} (h : l[k]? = some t) (hn : t ∉ l.drop (k + 1)) (h' : l[k']? = some t) (hn' : t ∉ l.drop (k' + 1)) : k = k' := by
  have key : ∀ {a b : Nat}, l[a]? = some t → t ∉ l.drop (b + 1) → ¬ b < a := fun {a b} ha hb hlt =>
    hb (List.mem_of_getElem? (i := a - (b + 1)) (by rw [List.getElem?_drop, show b + 1 + (a - (b + 1)) = a by omega]; exact ha))
  have := key h hn'
  have := key h' hn
  omega

theorem does_same {w w1 w2 : World} {op : Op} {o1 o2 : Out} (h1 : Does w op o1 w1) (h2 : Does w op o2 w2) : w1 = w2 ∧ (op.searches = false → o1 = o2) := by
  cases op with
  | removeAt i pos free =>
    obtain ⟨a1, a2, a3⟩ := h1
    obtain ⟨b1, b2, b3⟩ := h2
    refine ⟨?_, fun _ => a1.trans b1.symm⟩
    by_cases hc : 0 ≤ pos ∧ pos < (w.vec i).length
    · rw [a2 hc, b2 hc]
    · rw [a3 hc, b3 hc]
  | remove i s all =>
    obtain ⟨a1, a2, a3⟩ := h1
    obtain ⟨b1, b2, b3⟩ := h2
    refine ⟨?_, fun _ => a1.trans b1.symm⟩
    cases hs : w.src s with
    | none => rw [a3 hs, b3 hs]
    | some t => rw [a2 t hs, b2 t hs]
  | sort i asc =>
    obtain ⟨a1, l, a2, a3, rfl⟩ := h1
    obtain ⟨b1, m, b2, b3, rfl⟩ := h2
    exact ⟨by rw [sorted_same a3 b3 (a2.trans b2.symm)], fun _ => a1.trans b1.symm⟩
  | find i s =>
    obtain ⟨rfl, a⟩ := h1
    obtain ⟨rfl, b⟩ := h2
    refine ⟨rfl, fun _ => ?_⟩
    rcases a with ⟨rfl, a⟩ | ⟨k, t, rfl, a1, a2, a3⟩ <;> rcases b with ⟨rfl, b⟩ | ⟨k', t', rfl, b1, b2, b3⟩
    · rfl
    · exact absurd (List.mem_of_getElem? b2) (a t' b1)
    · exact absurd (List.mem_of_getElem? a2) (b t a1)
    · rw [a1] at b1
      cases b1
      rw [first_same a2 a3 b2 b3]
  | findLast i s =>
    obtain ⟨rfl, a⟩ := h1
    obtain ⟨rfl, b⟩ := h2
    refine ⟨rfl, fun _ => ?_⟩
    rcases a with ⟨rfl, a⟩ | ⟨k, t, rfl, a1, a2, a3⟩ <;> rcases b with ⟨rfl, b⟩ | ⟨k', t', rfl, b1, b2, b3⟩
    · rfl
    · exact absurd (List.mem_of_getElem? b2) (a t' b1)
    · exact absurd (List.mem_of_getElem? a2) (b t a1)
    · rw [a1] at b1
      cases b1
      rw [last_same a2 a3 b2 b3]
  | contains i s =>
    obtain ⟨rfl, b, rfl, a⟩ := h1
    obtain ⟨rfl, b', rfl, a'⟩ := h2
    refine ⟨rfl, fun _ => ?_⟩
    have : b = b' := by rw [Bool.eq_iff_iff, a, a']
    rw [this]
  | bsearch i s asc => exact ⟨h1.1.trans h2.1.symm, by simp [Op.searches]⟩
  | _ => exact ⟨h1.2.trans h2.2.symm, fun _ => h1.1.trans h2.1.symm⟩

theorem run_same {w w1 : World} {ops : List Op} {os : List Out} (h : Run w ops os w1) : ∀ {os' : List Out} {w2 : World}, Run w ops os' w2 →
    w1 = w2 ∧ ((∀ op ∈ ops, op.searches = false) → os = os') := by
  induction h with
  | nil => intro os' w2 h; cases h; exact ⟨rfl, fun _ => rfl⟩
  | @cons w op o w' ops os w'' hd _ ih =>
    intro os' w2 h
    cases h with
    | @cons _ _ o' v' _ os1 _ hd' h' =>
      obtain ⟨rfl, k⟩ := does_same hd hd'
      obtain ⟨rfl, g⟩ := ih h'
      refine ⟨rfl, fun hs => ?_⟩
      rw [k (hs op List.mem_cons_self), g fun x hx => hs x (List.mem_cons_of_mem _ hx)]

theorem run_split {a b : List Op} : ∀ {w w2 : World} {os : List Out}, Run w (a ++ b) os w2 → ∃ oa ob w1, os = oa ++ ob ∧ Run w a oa w1 ∧ Run w1 b ob w2 := by
  induction a with
  | nil => intro w w2 os h; exact ⟨[], os, w, rfl, .nil, h⟩
  | cons x a ih =>
    intro w w2 os h
    cases h with
    | cons hd h =>
      obtain ⟨oa, ob, w1, rfl, r1, r2⟩ := ih h
      exact ⟨_ :: oa, ob, w1, rfl, .cons hd r1, r2⟩

theorem run_outs {w w1 : World} {ops : List Op} {os : List Out} (h : Run w ops os w1) : os.length = ops.length := by
  induction h with
  | nil => rfl
  | cons _ _ ih => simp [ih]

/-- **C163** It doesn't matter how string vectors have come about: if two programs have done whatever they like (`a` and `b`) and now have got the same strings in their vectors, then whatever they
do next (`ops`) returns the same, leaves the same strings in their vectors, and as many strings allocated. E.g. it doesn't matter if an empty vector is `NULL`, nor how the memory has been
allocated, nor which functions sort and search. Except for binary search, which may find any of several equal strings. -/
theorem C163_contents {q q' : (Cell → Cell → M Int) → Block → Block} (hq : QsortContract q) (hq' : QsortContract q')
    {bs bs' : (Cell → Cell → M Int) → Cell → Block → Option Nat} (hb : BsearchContract bs) (hb' : BsearchContract bs') (a b ops : List Op)
    (ha : Allowed ⟨[], []⟩ (a ++ ops)) (hb2 : Allowed ⟨[], []⟩ (b ++ ops)) (w : World) (oa ob : List Out) (hw : Run ⟨[], []⟩ a oa w) (hw' : Run ⟨[], []⟩ b ob w)
    (hs : ∀ op ∈ ops, op.searches = false) :
    ∃ (xa xb os : List Out) (st st' : State) (w' : World), run q bs init (a ++ ops) = .ok (xa ++ os, st) ∧ run q' bs' init (b ++ ops) = .ok (xb ++ os, st') ∧ os.length = ops.length ∧
      allocated st.heap = allocated st'.heap ∧ st.vecs.length = w'.vecs.length ∧ st'.vecs.length = w'.vecs.length ∧
      (∀ (i : Nat) v v' ss, st.vecs[i]? = some v → st'.vecs[i]? = some v' → w'.vecs[i]? = some ss → (∃ ps, Owns st.heap v ps ss) ∧ ∃ ps, Owns st'.heap v' ps ss) := by
  obtain ⟨os1, st, w1, e1, e2, e3, e4, -, e6⟩ := C119_histories hq hb _ ha
  obtain ⟨os2, st', w2, f1, f2, f3, f4, -, f6⟩ := C119_histories hq' hb' _ hb2
  obtain ⟨xa, ya, va, rfl, r1, r2⟩ := run_split e2
  obtain ⟨xb, yb, vb, rfl, s1, s2⟩ := run_split f2
  obtain ⟨rfl, -⟩ := run_same r1 hw
  obtain ⟨rfl, -⟩ := run_same s1 hw'
  obtain ⟨rfl, k⟩ := run_same r2 s2
  have hk := k hs
  subst hk
  exact ⟨xa, xb, ya, st, st', w1, e1, f1, run_outs r2, e6.trans f6.symm, e3, f3, fun i v v' ss h1 h2 h3 => ⟨e4 i v ss h1 h3, f4 i v' ss h2 h3⟩⟩

/-- Linear search from the end. -/
def lastSearch (cmp : Cell → Cell → M Int) (key : Cell) : Block → Option Nat
  | [] => none
  | x :: t =>
    match lastSearch cmp key t with
    | some i => some (i + 1)
    | none => if cmp key x = .ok 0 then some 0 else none

theorem lastSearch_contract : BsearchContract lastSearch := by
  intro cmp key b h1 h2
  clear h1 h2
  induction b with
  | nil => simp [lastSearch]
  | cons x t ih =>
    rw [lastSearch]
    rcases hr : lastSearch cmp key t with _ | i
    · rw [hr] at ih
      by_cases e : cmp key x = .ok 0
      · simp only [e, if_true]
        exact ⟨x, by simp, e⟩
      · rw [if_neg e]
        simp only [List.mem_cons, forall_eq_or_imp]
        exact ⟨e, ih⟩
    · rw [hr] at ih
      simpa using ih

/-- One vector has never been used, the other one has been emptied. -/
theorem leads_null : Leads ⟨[], []⟩ [.newStr [97], .newVec] ⟨[[]], [[97]]⟩ := by
  refine leads_cons (w1 := ⟨[], [[97]]⟩) (by simp [Pre, Op.vecs, Op.srcs, World.Has]) (fun o w' h => by simp only [Does] at h; obtain ⟨-, h⟩ := h; rw [h]; decide) ?_
  refine leads_cons (w1 := ⟨[[]], [[97]]⟩) (by simp [Pre, Op.vecs, Op.srcs, World.Has]) (fun o w' h => by simp only [Does] at h; obtain ⟨-, h⟩ := h; rw [h]; decide) ?_
  exact leads_nil

theorem leads_emptied : Leads ⟨[], []⟩ [.newStr [97], .newVec, .add 0 (.mine 0), .removeAt 0 0 true] ⟨[[]], [[97]]⟩ := by
  refine leads_cons (w1 := ⟨[], [[97]]⟩) (by simp [Pre, Op.vecs, Op.srcs, World.Has]) (fun o w' h => by simp only [Does] at h; obtain ⟨-, h⟩ := h; rw [h]; decide) ?_
  refine leads_cons (w1 := ⟨[[]], [[97]]⟩) (by simp [Pre, Op.vecs, Op.srcs, World.Has]) (fun o w' h => by simp only [Does] at h; obtain ⟨-, h⟩ := h; rw [h]; decide) ?_
  refine leads_cons (w1 := ⟨[[[97]]], [[97]]⟩) (by simp [Pre, Op.vecs, Op.srcs, World.Has]) (fun o w' h => by simp only [Does] at h; obtain ⟨-, h⟩ := h; rw [h]; decide) ?_
  refine leads_cons (w1 := ⟨[[]], [[97]]⟩) (by simp [Pre, Op.vecs, Op.srcs, World.Has]) (fun o w' h => by rw [h.2.1 (by decide)]; decide) ?_
  exact leads_nil

theorem leads_twice : Leads ⟨[[]], [[97]]⟩ [.add 0 (.mine 0), .add 0 (.mine 0), .find 0 (.mine 0)] ⟨[[[97], [97]]], [[97]]⟩ := by
  refine leads_cons (w1 := ⟨[[[97]]], [[97]]⟩) (by simp [Pre, Op.vecs, Op.srcs, World.Has]) (fun o w' h => by simp only [Does] at h; obtain ⟨-, h⟩ := h; rw [h]; decide) ?_
  refine leads_cons (w1 := ⟨[[[97], [97]]], [[97]]⟩) (by simp [Pre, Op.vecs, Op.srcs, World.Has]) (fun o w' h => by simp only [Does] at h; obtain ⟨-, h⟩ := h; rw [h]; decide) ?_
  refine leads_cons (w1 := ⟨[[[97], [97]]], [[97]]⟩) (by simp [Pre, Op.vecs, Op.srcs, World.Has]) (fun o w' h => h.1) ?_
  exact leads_nil

theorem leads_append {w w1 w2 : World} {a b : List Op} (h1 : Leads w a w1) (h2 : Leads w1 b w2) : Leads w (a ++ b) w2 := by
  induction a generalizing w with
  | nil =>
    have := h1.2 [] w .nil
    subst this
    exact h2
  | cons x a ih =>
    refine ⟨⟨h1.1.1, fun o w' hd => ?_⟩, fun os w' hr => ?_⟩
    · exact (ih ⟨h1.1.2 o w' hd, fun os v hv => h1.2 _ _ (.cons hd hv)⟩).1
    · cases hr with
      | @cons _ _ o v _ os _ hd hr => exact (ih ⟨h1.1.2 o v hd, fun os v' hv => h1.2 _ _ (.cons hd hv)⟩).2 _ _ hr

/-- The hypotheses are met: an empty vector which is `NULL`, and one which isn't. -/
example : QsortContract insertionSort ∧ BsearchContract linearSearch ∧ BsearchContract lastSearch ∧
    Allowed ⟨[], []⟩ ([.newStr [97], .newVec] ++ [.add 0 (.mine 0), .add 0 (.mine 0), .find 0 (.mine 0)]) ∧
    Allowed ⟨[], []⟩ ([.newStr [97], .newVec, .add 0 (.mine 0), .removeAt 0 0 true] ++ [.add 0 (.mine 0), .add 0 (.mine 0), .find 0 (.mine 0)]) ∧
    (∃ os, Run ⟨[], []⟩ [.newStr [97], .newVec] os ⟨[[]], [[97]]⟩) ∧
    (∃ os, Run ⟨[], []⟩ [.newStr [97], .newVec, .add 0 (.mine 0), .removeAt 0 0 true] os ⟨[[]], [[97]]⟩) ∧
    run insertionSort linearSearch init [.newStr [97], .newVec] = .ok ([.none, .none], ⟨[some [97]], [none], [0]⟩) ∧
    run insertionSort linearSearch init [.newStr [97], .newVec, .add 0 (.mine 0), .removeAt 0 0 true] =
      .ok ([.none, .none, .none, .none], ⟨[some [97], none], [some [.null]], [0]⟩) := by
  refine ⟨insertionSort_contract, linearSearch_contract, lastSearch_contract, (leads_append leads_null leads_twice).1, (leads_append leads_emptied leads_twice).1, ?_, ?_,
    by decide +kernel, by decide +kernel⟩
  · obtain ⟨os, st, w, -, h, -⟩ := C119_histories insertionSort_contract linearSearch_contract _ leads_null.1
    exact ⟨os, leads_null.2 _ _ h ▸ h⟩
  · obtain ⟨os, st, w, -, h, -⟩ := C119_histories insertionSort_contract linearSearch_contract _ leads_emptied.1
    exact ⟨os, leads_emptied.2 _ _ h ▸ h⟩

/-- **C163** Why binary search is excluded: which one of several equal strings is found depends on the function which searches. -/
theorem C163_search : BsearchContract linearSearch ∧ BsearchContract lastSearch ∧
    Allowed ⟨[], []⟩ ([.newStr [97], .newVec] ++ ([.add 0 (.mine 0), .add 0 (.mine 0), .find 0 (.mine 0)] ++ [.bsearch 0 (.mine 0) true])) ∧
    ∃ st, run insertionSort linearSearch init [.newStr [97], .newVec, .add 0 (.mine 0), .add 0 (.mine 0), .find 0 (.mine 0), .bsearch 0 (.mine 0) true] =
        .ok ([.none, .none, .none, .none, .int 0, .int 0], st) ∧
      run insertionSort lastSearch init [.newStr [97], .newVec, .add 0 (.mine 0), .add 0 (.mine 0), .find 0 (.mine 0), .bsearch 0 (.mine 0) true] =
        .ok ([.none, .none, .none, .none, .int 0, .int 1], st) := by
  refine ⟨linearSearch_contract, lastSearch_contract, (leads_append leads_null (leads_append leads_twice
    (leads_cons (op := .bsearch 0 (.mine 0) true) (w1 := ⟨[[[97], [97]]], [[97]]⟩) ⟨by decide, by simp [Op.srcs, World.Has], by simp [Sorted, less, World.vec]⟩ (fun o w' h => h.1) leads_nil))).1, _, rfl, by decide +kernel⟩

end Verif.Strv
