import Verif.Model.Ints

namespace Verif.Ints
open Verif.C

/-- The invariant between the model and the specification. `d`: an object with one reference
which nobody has any more. -/
def isPart (i : Nat) : Option Obj → Bool
  | some o => o.free = .unref i
  | none => false

def State.children (m : State) (i : Nat) : Nat := m.objs.countP (isPart i)

def State.live (m : State) (i : Nat) : Bool :=
  match m.objs[i]? with
  | some (some _) => true
  | _ => false

def staticB (s : Spec.State) (i : Nat) : Bool :=
  match s.objs[i]? with
  | some o => o.kind = .static
  | none => false

def freeOf (k : Spec.Kind) (b : Nat) : Free :=
  match k with
  | .static => .null
  | .gfree => .gfree b
  | .user => .user b
  | .part p => .unref p

def IsRoot (k : Spec.Kind) : Prop := ∀ p, k ≠ .part p

def blockOf (m : State) (s : Spec.State) (k : Spec.Block) : Option (List Val) :=
  match k.stat with
  | .mine => some k.vals
  | .gone => none
  | .lent i => if m.live i || staticB s i then some k.vals else none

structure Inv (m : State) (s : Spec.State) (d : Option Nat) : Prop where
  lenO : m.objs.length = s.objs.length
  lenB : m.blocks.length = s.blocks.length
  live : ∀ (i : Nat) (o : Obj), m.objs[i]? = some (some o) → ∃ so : Spec.Obj, s.objs[i]? = some so ∧
    o.block = so.block ∧ o.off = so.off ∧ o.count = so.count ∧ o.free = freeOf so.kind so.block ∧
    o.refs = so.own + m.children i + (if d = some i then 1 else 0) ∧ 0 < o.refs
  dead : ∀ i : Nat, m.objs[i]? = some none → (∃ so : Spec.Obj, s.objs[i]? = some so ∧ so.own = 0) ∧
    m.children i = 0 ∧ d ≠ some i
  part : ∀ (i : Nat) (o : Obj) (p : Nat), m.objs[i]? = some (some o) → o.free = .unref p → p < i ∧
    ∃ po : Obj, m.objs[p]? = some (some po) ∧ o.block = po.block ∧ po.off ≤ o.off ∧ o.off + o.count ≤ po.off + po.count
  root : ∀ (i : Nat) (o : Obj) (so : Spec.Obj), m.objs[i]? = some (some o) → s.objs[i]? = some so → IsRoot so.kind →
    o.off = 0 ∧ ∃ k : Spec.Block, s.blocks[o.block]? = some k ∧ k.stat = .lent i ∧ o.off + o.count ≤ k.vals.length
  blocks : ∀ (b : Nat) (k : Spec.Block), s.blocks[b]? = some k → m.blocks[b]? = some (blockOf m s k)
  lent : ∀ (b : Nat) (k : Spec.Block) (i : Nat), s.blocks[b]? = some k → k.stat = .lent i → ∃ so : Spec.Obj, s.objs[i]? = some so ∧ so.block = b ∧ IsRoot so.kind
  deb : ∀ i : Nat, d = some i → m.live i = true

theorem live_iff {m : State} {i : Nat} : m.live i = true ↔ ∃ o, m.objs[i]? = some (some o) := by
  unfold State.live
  split <;> simp_all

theorem obj_ok {m : State} {i : Nat} {o : Obj} (h : m.objs[i]? = some (some o)) : m.obj i = .ok o := by
  unfold State.obj
  rw [h]

/-- Replacing an object by one of the same kind. -/
theorem children_set {m : State} {i : Nat} {x y : Option Obj} (h : m.objs[i]? = some x) (j : Nat) :
    ({ m with objs := m.objs.set i y } : State).children j + (if isPart j x then 1 else 0)
      = m.children j + (if isPart j y then 1 else 0) := by
  obtain ⟨hi, hx⟩ := List.getElem?_eq_some_iff.1 h
  unfold State.children
  rw [List.countP_set hi]
  have : (if isPart j x then 1 else 0) ≤ m.objs.countP (isPart j) := by
    split
    · have : 0 < m.objs.countP (isPart j) :=
        List.countP_pos_iff.2 ⟨x, List.mem_iff_getElem?.2 ⟨i, h⟩, by assumption⟩
      omega
    · omega
  subst hx
  omega

theorem live_set {m : State} {i : Nat} {y : Option Obj} {x} (h : m.objs[i]? = some x) (j : Nat) :
    ({ m with objs := m.objs.set i y } : State).live j = if i = j then y.isSome else m.live j := by
  obtain ⟨hi, hx⟩ := List.getElem?_eq_some_iff.1 h
  unfold State.live
  simp only [List.getElem?_set]
  by_cases e : i = j
  · subst e
    simp only [if_true, hi]
    cases y <;> rfl
  · simp only [if_neg e]

theorem children_pos {m : State} {j p : Nat} {o : Obj} (h : m.objs[j]? = some (some o)) (hf : o.free = .unref p) :
    0 < m.children p :=
  List.countP_pos_iff.2 ⟨some o, List.mem_iff_getElem?.2 ⟨j, h⟩, by simp [isPart, hf]⟩

theorem release_ok {m : State} {b : Nat} {l} (h : m.blocks[b]? = some (some l)) :
    m.release b = .ok { m with blocks := m.blocks.set b none } := by
  unfold State.release
  rw [h]

/-- Parents come before their parts. -/
def Down (m : State) : Prop := ∀ (i : Nat) (o : Obj) (p : Nat), m.objs[i]? = some (some o) → o.free = .unref p → p < i

theorem Inv.down {m s d} (h : Inv m s d) : Down m := fun i o p h1 h2 => (h.part i o p h1 h2).1

def State.setObj (m : State) (i : Nat) (x : Option Obj) : State := { m with objs := m.objs.set i x }

theorem release_setObj (m : State) (b i : Nat) (x : Option Obj) (m' : State) (h : m.release b = .ok m') :
    (m.setObj i x).release b = .ok (m'.setObj i x) ∧ m'.objs = m.objs := by
  unfold State.release at h ⊢
  unfold State.setObj
  cases hb : m.blocks[b]? with
  | none => simp [hb] at h
  | some l =>
    cases l with
    | none => simp [hb] at h
    | some l =>
      rw [hb] at h
      have := Except.ok.inj h
      subst this
      exact ⟨rfl, rfl⟩

/-- Dropping a reference to an object doesn't depend on the objects after it and leaves
them alone. -/
theorem unref_frame (fuel : Nat) : ∀ (m : State) (p i : Nat) (x : Option Obj) (m' : State), p < i → Down m →
    unref fuel m p = .ok m' →
    unref fuel (m.setObj i x) p = .ok (m'.setObj i x) ∧ m'.objs[i]? = m.objs[i]? ∧
      m'.objs.length = m.objs.length := by
  induction fuel with
  | zero => intro m p i x m' _ _ h; cases h
  | succ fuel ih =>
    intro m p i x m' hpi hd h
    have hne : i ≠ p := by omega
    have hobj : (m.setObj i x).obj p = m.obj p := by
      unfold State.obj State.setObj
      simp only [List.getElem?_set, if_neg hne]
    rw [unref, hobj]
    rw [unref] at h
    cases ho : m.obj p with
    | error e => rw [ho] at h; cases h
    | ok o =>
      rw [ho, ok_bind] at h
      rw [ok_bind]
      have hop : m.objs[p]? = some (some o) := by
        unfold State.obj at ho
        split at ho
        · cases ho; assumption
        · cases ho
        · cases ho
      by_cases hr : o.refs = 1
      · rw [if_pos hr] at h ⊢
        have key : ∀ m1 : State, ifFree (unref fuel) m o.free = .ok m1 →
            ifFree (unref fuel) (m.setObj i x) o.free = .ok (m1.setObj i x) ∧
            m1.objs[i]? = m.objs[i]? ∧ m1.objs.length = m.objs.length := by
          intro m1 h1
          cases hf : o.free with
          | null => rw [hf] at h1; cases h1; exact ⟨rfl, rfl, rfl⟩
          | gfree b =>
            rw [hf] at h1
            obtain ⟨a, e⟩ := release_setObj m b i x m1 h1
            exact ⟨a, by rw [e], by rw [e]⟩
          | user b =>
            rw [hf] at h1
            obtain ⟨a, e⟩ := release_setObj m b i x m1 h1
            exact ⟨a, by rw [e], by rw [e]⟩
          | unref q =>
            rw [hf] at h1
            have : q < p := hd p o q hop hf
            exact ih m q i x m1 (by omega) hd h1
        revert h
        generalize hA : ifFree (unref fuel) m o.free = A
        intro h
        cases A with
        | error e => cases h
        | ok m1 =>
          obtain ⟨k1, k2, k3⟩ := key m1 hA
          rw [ok_bind] at h
          have := Except.ok.inj h
          subst this
          rw [k1, ok_bind]
          refine ⟨?_, ?_, ?_⟩
          · simp only [State.setObj]
            rw [List.set_comm _ _ hne]
          · simp only [List.getElem?_set, if_neg (Ne.symm hne)]
            exact k2
          · simp only [List.length_set]
            exact k3
      · rw [if_neg hr] at h ⊢
        have := Except.ok.inj h
        subst this
        refine ⟨?_, ?_, ?_⟩
        · simp only [State.setObj]
          rw [List.set_comm _ _ hne]
        · simp only [List.getElem?_set, if_neg (Ne.symm hne)]
        · simp only [List.length_set]

theorem getElem?_set' {α} {l : List α} {i : Nat} {x : α} (h : l[i]? = some x) (y : α) (j : Nat) :
    (l.set i y)[j]? = if i = j then some y else l[j]? := by
  obtain ⟨hi, -⟩ := List.getElem?_eq_some_iff.1 h
  rw [List.getElem?_set]
  by_cases e : i = j
  · subst e; simp [hi]
  · simp [e]

/-- Another number of references. -/
theorem Inv.setRefs {m : State} {s : Spec.State} {i : Nat} {o : Obj} {d d' : Option Nat} (r : Nat) (h : Inv m s d) (ho : m.objs[i]? = some (some o))
    (hr : 0 < r) (hd : ∀ j, d = some j → j = i) (hd' : ∀ j, d' = some j → j = i)
    (he : r + (if d = some i then 1 else 0) = o.refs + (if d' = some i then 1 else 0)) :
    Inv (m.setObj i (some { o with refs := r })) s d' := by
  have hch : ∀ j, (m.setObj i (some { o with refs := r })).children j = m.children j := by
    intro j
    have := children_set (y := some { o with refs := r }) ho j
    have e : isPart j (some { o with refs := r }) = isPart j (some o) := rfl
    rw [e] at this
    unfold State.setObj
    omega
  have hlv : ∀ j, (m.setObj i (some { o with refs := r })).live j = m.live j := by
    intro j
    unfold State.setObj
    rw [live_set ho]
    split
    · subst_vars
      rw [live_iff.2 ⟨o, ho⟩]; rfl
    · rfl
  obtain ⟨so, hs, e1, e2, e3, e4, e5, e6⟩ := h.live i o ho
  constructor
  · simp [State.setObj, h.lenO]
  · simp [State.setObj, h.lenB]
  · intro j oj hj
    simp only [State.setObj, getElem?_set' ho] at hj
    rw [hch]
    split at hj
    · subst_vars
      simp only [Option.some.injEq] at hj
      subst hj
      exact ⟨so, hs, e1, e2, e3, e4, by simp only []; omega, hr⟩
    · rename_i hne
      obtain ⟨so', a⟩ := h.live j oj hj
      refine ⟨so', ?_⟩
      rw [if_neg (fun e => hne (hd j e).symm)] at a
      rw [if_neg (fun e => hne (hd' j e).symm)]
      exact a
  · intro j hj
    simp only [State.setObj, getElem?_set' ho] at hj
    rw [hch]
    split at hj
    · simp at hj
    · rename_i hne
      have := h.dead j hj
      exact ⟨this.1, this.2.1, fun e => hne (hd' j e).symm⟩
  · intro j oj p hj hf
    have hj' : ∃ oj', m.objs[j]? = some (some oj') ∧ oj'.free = oj.free ∧ oj'.block = oj.block ∧ oj'.off = oj.off ∧ oj'.count = oj.count := by
      simp only [State.setObj, getElem?_set' ho] at hj
      split at hj
      · subst_vars
        simp only [Option.some.injEq] at hj
        subst hj
        exact ⟨o, ho, rfl, rfl, rfl, rfl⟩
      · exact ⟨oj, hj, rfl, rfl, rfl, rfl⟩
    obtain ⟨oj', a1, a2, a3, a4, a5⟩ := hj'
    obtain ⟨b1, po, b2, b3, b4, b5⟩ := h.part j oj' p a1 (by rw [a2, hf])
    refine ⟨b1, ?_⟩
    simp only [State.setObj, getElem?_set' ho]
    split
    · subst_vars
      rw [ho] at b2
      simp only [Option.some.injEq] at b2
      subst b2
      exact ⟨_, rfl, by rw [← a3]; exact b3, by rw [← a4]; exact b4, by rw [← a4, ← a5]; exact b5⟩
    · exact ⟨po, b2, by rw [← a3]; exact b3, by rw [← a4]; exact b4, by rw [← a4, ← a5]; exact b5⟩
  · intro j oj soj hj hsj hroot
    simp only [State.setObj, getElem?_set' ho] at hj
    split at hj
    · subst_vars
      simp only [Option.some.injEq] at hj
      subst hj
      exact h.root _ o soj ho hsj hroot
    · exact h.root j oj soj hj hsj hroot
  · intro b k hk
    show m.blocks[b]? = _
    rw [h.blocks b k hk]
    unfold blockOf
    split <;> simp only [hlv]
  · exact h.lent
  · intro j e
    rw [hlv, hd' j e]
    exact live_iff.2 ⟨o, ho⟩

/-- One reference less to an object with more than one. -/
theorem Inv.dec {m : State} {s : Spec.State} {i : Nat} {o : Obj} (h : Inv m s (some i)) (ho : m.objs[i]? = some (some o)) (hr : o.refs ≠ 1) :
    Inv (m.setObj i (some { o with refs := o.refs - 1 })) s none := by
  obtain ⟨so, hs, e1, e2, e3, e4, e5, e6⟩ := h.live i o ho
  exact h.setRefs _ ho (by omega) (by simp) (by simp) (by simp; omega)

/-- One more. -/
theorem Inv.inc {m : State} {s : Spec.State} {i : Nat} {o : Obj} (h : Inv m s none) (ho : m.objs[i]? = some (some o)) :
    Inv (m.setObj i (some { o with refs := o.refs + 1 })) s (some i) :=
  h.setRefs _ ho (by omega) (by simp) (by simp) (by simp)


/-- An object to which nobody refers any more. -/
theorem Inv.unused {m : State} {s : Spec.State} {i : Nat} {o : Obj} (h : Inv m s (some i)) (ho : m.objs[i]? = some (some o)) (hr : o.refs = 1) :
    (∃ so : Spec.Obj, s.objs[i]? = some so ∧ so.own = 0) ∧ m.children i = 0 := by
  obtain ⟨so, hs, e1, e2, e3, e4, e5, e6⟩ := h.live i o ho
  rw [if_pos rfl] at e5
  exact ⟨⟨so, hs, by omega⟩, by omega⟩

/-- Removing it (the reference to the parent, if there's one, remains). -/
theorem Inv.drop {m : State} {s : Spec.State} {i : Nat} {o : Obj} (h : Inv m s (some i)) (ho : m.objs[i]? = some (some o)) (hr : o.refs = 1)
    (bl : List (Option (List Val))) (hlen : bl.length = m.blocks.length)
    (hbl : ∀ (b : Nat) (k : Spec.Block), s.blocks[b]? = some k → bl[b]? = some (blockOf (m.setObj i none) s k)) :
    Inv ⟨bl, m.objs.set i none⟩ s (match o.free with | .unref p => some p | _ => none) := by
  have hch : ∀ j, (⟨bl, m.objs.set i none⟩ : State).children j + (if isPart j (some o) then 1 else 0) = m.children j := by
    intro j
    have := children_set (y := none) ho j
    simp only [isPart] at this ⊢
    simpa [State.children] using this
  have hlv : ∀ j, (⟨bl, m.objs.set i none⟩ : State).live j = if i = j then false else m.live j := by
    intro j
    exact live_set (y := none) ho j
  obtain ⟨⟨so, hs, hown⟩, hc0⟩ := h.unused ho hr
  have hnp : o.free ≠ .unref i := by
    intro e
    have := children_pos ho e
    omega
  have hpart : ∀ j, isPart j (some o) = true ↔ o.free = .unref j := by
    intro j; simp [isPart]
  constructor
  · simp [h.lenO]
  · simp [hlen, h.lenB]
  · intro j oj hj
    simp only [getElem?_set' ho] at hj
    split at hj
    · simp at hj
    · rename_i hne
      obtain ⟨so', a1, a2, a3, a4, a5, a6, a7⟩ := h.live j oj hj
      refine ⟨so', a1, a2, a3, a4, a5, ?_, a7⟩
      rw [if_neg (by simp [hne])] at a6
      rw [a6, ← hch j]
      cases hf : o.free <;> simp [isPart, hf]
      omega
  · intro j hj
    simp only [getElem?_set' ho] at hj
    split at hj
    · rename_i e0; subst e0
      refine ⟨⟨so, hs, hown⟩, by have := hch i; omega, ?_⟩
      cases hf : o.free <;> simp
      intro e; exact hnp (by rw [hf, e])
    · have := h.dead j hj
      refine ⟨this.1, by have := hch j; omega, ?_⟩
      cases hf : o.free <;> simp
      intro e
      rw [e] at hf
      have := children_pos ho hf
      omega
  · intro j oj p hj hf
    simp only [getElem?_set' ho] at hj
    split at hj
    · simp at hj
    · rename_i hne
      obtain ⟨b1, po, b2, b3⟩ := h.part j oj p hj hf
      have : i ≠ p := by
        intro e
        subst e
        have := children_pos hj hf
        omega
      exact ⟨b1, po, by simp only [getElem?_set' ho, if_neg this]; exact b2, b3⟩
  · intro j oj soj hj hsj hroot
    simp only [getElem?_set' ho] at hj
    split at hj
    · simp at hj
    · exact h.root j oj soj hj hsj hroot
  · intro b k hk
    rw [hbl b k hk]
    rfl
  · exact h.lent
  · intro j e
    cases hf : o.free <;> rw [hf] at e <;> simp at e
    subst e
    rename_i p
    obtain ⟨b1, po, b2, -⟩ := h.part i o p ho hf
    rw [hlv, if_neg (by omega)]
    exact live_iff.2 ⟨po, b2⟩

/-- The block of an object which isn't needed any more. -/
theorem Inv.blocks_drop {m : State} {s : Spec.State} {i : Nat} {o : Obj} (h : Inv m s (some i)) (ho : m.objs[i]? = some (some o))
    (hf : o.free = .gfree o.block ∨ o.free = .user o.block) :
    (∃ l, m.blocks[o.block]? = some (some l)) ∧
    ∀ (b : Nat) (k : Spec.Block), s.blocks[b]? = some k → (m.blocks.set o.block none)[b]? = some (blockOf (m.setObj i none) s k) := by
  obtain ⟨so, hs, e1, e2, e3, e4, e5, e6⟩ := h.live i o ho
  have hroot : IsRoot so.kind ∧ so.kind ≠ .static := by
    rw [e4] at hf
    cases hk : so.kind <;> simp [hk, freeOf, IsRoot] at hf ⊢
  obtain ⟨-, k, hk, hst, -⟩ := h.root i o so ho hs hroot.1
  have hb := h.blocks _ k hk
  have hl : blockOf m s k = some k.vals := by
    unfold blockOf
    rw [hst]
    simp [live_iff.2 ⟨o, ho⟩]
  rw [hl] at hb
  refine ⟨⟨_, hb⟩, fun b k' hk' => ?_⟩
  have hlv : ∀ j, (m.setObj i none).live j = if i = j then false else m.live j := fun j => live_set (y := none) ho j
  rw [getElem?_set' hb]
  split
  · subst_vars
    rw [hk] at hk'
    cases hk'
    unfold blockOf
    rw [hst]
    simp only [hlv, if_true, staticB, hs]
    simp [hroot.2]
  · rename_i hne
    rw [h.blocks b k' hk']
    unfold blockOf
    cases hst' : k'.stat with
    | mine => rfl
    | gone => rfl
    | lent j =>
      simp only [hlv]
      have : i ≠ j := by
        intro e
        subst e
        obtain ⟨so', c1, c2, -⟩ := h.lent b k' i hk' hst'
        rw [hs] at c1
        cases c1
        exact hne (by rw [e1, c2])
      rw [if_neg this]

/-- Otherwise nothing happens to the blocks. -/
theorem Inv.blocks_keep {m : State} {s : Spec.State} {i : Nat} {o : Obj} (h : Inv m s (some i)) (ho : m.objs[i]? = some (some o))
    (hf : o.free = .null ∨ ∃ p, o.free = .unref p) :
    ∀ (b : Nat) (k : Spec.Block), s.blocks[b]? = some k → m.blocks[b]? = some (blockOf (m.setObj i none) s k) := by
  intro b k hk
  obtain ⟨so, hs, e1, e2, e3, e4, e5, e6⟩ := h.live i o ho
  have hlv : ∀ j, (m.setObj i none).live j = if i = j then false else m.live j := fun j => live_set (y := none) ho j
  rw [h.blocks b k hk]
  unfold blockOf
  cases hst : k.stat with
  | mine => rfl
  | gone => rfl
  | lent j =>
    simp only [hlv]
    by_cases hij : i = j
    · subst hij
      obtain ⟨so', c1, c2, c3⟩ := h.lent b k i hk hst
      rw [hs] at c1
      cases c1
      have : staticB s i = true := by
        simp only [staticB, hs]
        rw [e4] at hf
        cases hkd : so.kind <;> simp [hkd, freeOf, IsRoot] at hf c3 ⊢
      simp [this]
    · rw [if_neg hij]

theorem Inv.unref {s} (fuel : Nat) : ∀ (m : State) (i : Nat), Inv m s (some i) → i < fuel →
    ∃ m', unref fuel m i = .ok m' ∧ Inv m' s none := by
  induction fuel with
  | zero => intro m i _ h; omega
  | succ fuel ih =>
    intro m i h hi
    obtain ⟨o, ho⟩ := live_iff.1 (h.deb i rfl)
    rw [Ints.unref, obj_ok ho, ok_bind]
    by_cases hr : o.refs = 1
    · rw [if_pos hr]
      have e4 := h.live i o ho
      obtain ⟨so, hs, e1, e2, e3, e4, e5, e6⟩ := e4
      cases hf : o.free with
      | null =>
        refine ⟨_, rfl, ?_⟩
        have := h.drop ho hr m.blocks rfl (h.blocks_keep ho (Or.inl hf))
        rw [hf] at this
        exact this
      | gfree b =>
        have hb : b = o.block := by
          rw [e4] at hf
          cases hk : so.kind <;> simp [hk, freeOf] at hf
          omega
        subst hb
        obtain ⟨⟨l, hl⟩, hbl⟩ := h.blocks_drop ho (Or.inl hf)
        rw [ifFree, if_neg (by simp), callFree, release_ok hl, ok_bind]
        refine ⟨_, rfl, ?_⟩
        have := h.drop ho hr (m.blocks.set o.block none) (by simp) hbl
        rw [hf] at this
        exact this
      | user b =>
        have hb : b = o.block := by
          rw [e4] at hf
          cases hk : so.kind <;> simp [hk, freeOf] at hf
          omega
        subst hb
        obtain ⟨⟨l, hl⟩, hbl⟩ := h.blocks_drop ho (Or.inr hf)
        rw [ifFree, if_neg (by simp), callFree, release_ok hl, ok_bind]
        refine ⟨_, rfl, ?_⟩
        have := h.drop ho hr (m.blocks.set o.block none) (by simp) hbl
        rw [hf] at this
        exact this
      | unref p =>
        rw [ifFree, if_neg (by simp), callFree]
        have hpi := (h.part i o p ho hf).1
        have h0 := h.drop ho hr m.blocks rfl (h.blocks_keep ho (Or.inr ⟨p, hf⟩))
        rw [hf] at h0
        dsimp only at h0
        obtain ⟨m1, r1, i1⟩ := ih _ p h0 (by omega)
        obtain ⟨f1, f2, f3⟩ := unref_frame fuel _ p i (some o) m1 hpi h0.down r1
        have hback : (⟨m.blocks, m.objs.set i none⟩ : State).setObj i (some o) = m := by
          simp only [State.setObj, List.set_set]
          obtain ⟨hi', hx⟩ := List.getElem?_eq_some_iff.1 ho
          rw [← hx, List.set_getElem_self]
        rw [hback] at f1
        rw [f1, ok_bind]
        refine ⟨_, rfl, ?_⟩
        simp only [State.setObj, List.set_set]
        simp only [getElem?_set' ho, if_true] at f2
        obtain ⟨hi', hx⟩ := List.getElem?_eq_some_iff.1 f2
        have : m1.objs.set i none = m1.objs := by
          rw [← hx, List.set_getElem_self]
        rw [this]
        exact i1
    · rw [if_neg hr]
      exact ⟨_, rfl, h.dec ho hr⟩

/-! ### Which objects are there -/

theorem Inv.kept_of_live {m : State} {s : Spec.State} (h : Inv m s none) (n : Nat) : ∀ i, m.objs.length - i ≤ n → m.live i = true →
    Spec.Kept s i := by
  induction n with
  | zero =>
    intro i hn hl
    obtain ⟨o, ho⟩ := live_iff.1 hl
    obtain ⟨hi, -⟩ := List.getElem?_eq_some_iff.1 ho
    omega
  | succ n ih =>
    intro i hn hl
    obtain ⟨o, ho⟩ := live_iff.1 hl
    obtain ⟨hi, -⟩ := List.getElem?_eq_some_iff.1 ho
    obtain ⟨so, hs, e1, e2, e3, e4, e5, e6⟩ := h.live i o ho
    by_cases hown : 0 < so.own
    · exact .own hs hown
    · have hc : 0 < m.children i := by simp at e5; omega
      obtain ⟨x, hx, hp⟩ := List.countP_pos_iff.1 hc
      obtain ⟨j, hj⟩ := List.mem_iff_getElem?.1 hx
      cases x with
      | none => cases hp
      | some oj =>
        have hf : oj.free = .unref i := by simpa [isPart] using hp
        have hij := (h.part j oj i hj hf).1
        obtain ⟨sj, hsj, -, -, -, f4, -⟩ := h.live j oj hj
        refine .part hsj ?_ (ih j (by omega) (live_iff.2 ⟨oj, hj⟩))
        rw [hf] at f4
        cases hk : sj.kind <;> simp [hk, freeOf] at f4
        rw [f4]

theorem Inv.kept_iff {m : State} {s : Spec.State} (h : Inv m s none) (i : Nat) : Spec.Kept s i ↔ m.live i = true := by
  constructor
  · intro hk
    induction hk with
    | own hs hown =>
      rename_i i so
      obtain ⟨hi, -⟩ := List.getElem?_eq_some_iff.1 hs
      rw [← h.lenO] at hi
      cases hx : m.objs[i] with
      | none =>
        obtain ⟨⟨so', a, b⟩, -⟩ := h.dead i (List.getElem?_eq_some_iff.2 ⟨hi, hx⟩)
        rw [hs] at a
        cases a
        omega
      | some o => exact live_iff.2 ⟨o, List.getElem?_eq_some_iff.2 ⟨hi, hx⟩⟩
    | part hs hkd _ ih =>
      rename_i i' j' so
      obtain ⟨o, ho⟩ := live_iff.1 ih
      obtain ⟨so', a, -, -, -, e4, -⟩ := h.live _ o ho
      rw [hs] at a
      cases a
      rw [hkd] at e4
      obtain ⟨-, po, hp, -⟩ := h.part _ o _ ho e4
      exact live_iff.2 ⟨po, hp⟩
  · exact h.kept_of_live _ i (Nat.le_refl _)

end Verif.Ints
