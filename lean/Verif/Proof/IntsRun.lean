import Verif.Proof.Ints

namespace Verif.Ints
open Verif.C

theorem Inv.obj_mem {m : State} {s : Spec.State} {d : Option Nat} (h : Inv m s d) {i : Nat} {so : Spec.Obj}
    (hs : s.objs[i]? = some so) : m.objs[i]? = some none ∨ ∃ o, m.objs[i]? = some (some o) := by
  obtain ⟨hi, -⟩ := List.getElem?_eq_some_iff.1 hs
  rw [← h.lenO] at hi
  cases hx : m.objs[i] with
  | none => exact Or.inl (List.getElem?_eq_some_iff.2 ⟨hi, hx⟩)
  | some o => exact Or.inr ⟨o, List.getElem?_eq_some_iff.2 ⟨hi, hx⟩⟩

theorem Inv.owned {m : State} {s : Spec.State} {d : Option Nat} (h : Inv m s d) {i : Nat} {so : Spec.Obj}
    (hs : s.objs[i]? = some so) (hown : 0 < so.own) : ∃ o, m.objs[i]? = some (some o) := by
  rcases h.obj_mem hs with hx | hx
  · obtain ⟨⟨so', a, b⟩, -⟩ := h.dead i hx
    rw [hs] at a
    cases a
    omega
  · exact hx

/-- The specification of the references changes. -/
theorem Inv.setOwn {m : State} {s : Spec.State} {i : Nat} {so : Spec.Obj} {d d' : Option Nat} (f : Spec.Obj → Spec.Obj)
    (h : Inv m s d) (hs : s.objs[i]? = some so) {o : Obj} (ho : m.objs[i]? = some (some o))
    (hf : (f so).kind = so.kind ∧ (f so).block = so.block ∧ (f so).off = so.off ∧ (f so).count = so.count)
    (hd : ∀ j, d = some j → j = i) (hd' : ∀ j, d' = some j → j = i)
    (he : (f so).own + (if d' = some i then 1 else 0) = so.own + (if d = some i then 1 else 0)) :
    Inv m { s with objs := s.objs.modify i f } d' := by
  have hst : ∀ j, staticB { s with objs := s.objs.modify i f } j = staticB s j := by
    intro j
    unfold staticB
    simp only [List.getElem?_modify]
    by_cases e : i = j
    · subst e; simp [hs, hf.1]
    · cases hj : s.objs[j]? <;> simp [e]
  have hget : ∀ j x, s.objs[j]? = some x → (s.objs.modify i f)[j]? = some (if i = j then f so else x) := by
    intro j x hx
    rw [List.getElem?_modify, hx]
    by_cases e : i = j
    · subst e
      rw [hs] at hx; cases hx
      simp
    · simp [e]
  have hget' : ∀ j y, (s.objs.modify i f)[j]? = some y → ∃ x, s.objs[j]? = some x ∧ y = if i = j then f so else x := by
    intro j y hy
    cases hj : s.objs[j]? with
    | none => rw [List.getElem?_modify, hj] at hy; simp at hy
    | some x =>
      refine ⟨x, rfl, ?_⟩
      rw [hget j x hj] at hy
      exact (Option.some.inj hy).symm
  constructor
  · simp [h.lenO]
  · exact h.lenB
  · intro j oj hj
    obtain ⟨so', a1, a2, a3, a4, a5, a6, a7⟩ := h.live j oj hj
    refine ⟨_, hget j so' a1, ?_⟩
    by_cases e : i = j
    · subst e
      rw [hs] at a1; cases a1
      rw [if_pos rfl, hf.1, hf.2.1, hf.2.2.1, hf.2.2.2]
      exact ⟨a2, a3, a4, a5, by omega, a7⟩
    · rw [if_neg e]
      rw [if_neg (fun e' => e (hd j e').symm)] at a6
      rw [if_neg (fun e' => e (hd' j e').symm)]
      exact ⟨a2, a3, a4, a5, a6, a7⟩
  · intro j hj
    obtain ⟨⟨so', a1, a2⟩, a3, a4⟩ := h.dead j hj
    have e : i ≠ j := by intro e; subst e; rw [ho] at hj; simp at hj
    refine ⟨⟨so', ?_, a2⟩, a3, fun e' => e (hd' j e').symm⟩
    have := hget j so' a1
    rwa [if_neg e] at this
  · exact h.part
  · intro j oj soj hj hsj hroot
    obtain ⟨x, hx, e⟩ := hget' j soj hsj
    have : soj.kind = x.kind := by
      rw [e]
      split
      · rename_i e'; subst e'; rw [hs] at hx; cases hx; exact hf.1
      · rfl
    exact h.root j oj x hj hx (by rw [← this]; exact hroot)
  · intro b k hk
    rw [h.blocks b k hk]
    unfold blockOf
    split <;> simp only [hst]
  · intro b k j hk hst'
    obtain ⟨x, hx, e1, e2⟩ := h.lent b k j hk hst'
    refine ⟨_, hget j x hx, ?_⟩
    split
    · rename_i e'; subst e'; rw [hs] at hx; cases hx; rw [hf.1, hf.2.1]; exact ⟨e1, e2⟩
    · exact ⟨e1, e2⟩
  · intro j e
    rw [hd' j e]
    exact live_iff.2 ⟨o, ho⟩

theorem Inv.dropOwn {m : State} {s : Spec.State} {i : Nat} {so : Spec.Obj} (h : Inv m s none)
    (hs : s.objs[i]? = some so) (hown : 0 < so.own) : Inv m (s.dropOwn i) (some i) := by
  obtain ⟨o, ho⟩ := h.owned hs hown
  refine h.setOwn _ hs ho ⟨rfl, rfl, rfl, rfl⟩ (by simp) (by simp) ?_
  simp
  omega

theorem Inv.addOwn {m : State} {s : Spec.State} {i : Nat} {so : Spec.Obj} (h : Inv m s (some i))
    (hs : s.objs[i]? = some so) :
    Inv m { s with objs := s.objs.modify i (fun o => { o with own := o.own + 1 }) } none := by
  obtain ⟨o, ho⟩ := live_iff.1 (h.deb i rfl)
  exact h.setOwn _ hs ho ⟨rfl, rfl, rfl, rfl⟩ (by simp) (by simp) (by simp)

/-- A new block of the program. -/
theorem Inv.addBlock {m : State} {s : Spec.State} {d : Option Nat} (h : Inv m s d) (v : List Val) :
    Inv (m.alloc v).1 (s.addBlock ⟨v, .mine⟩) d := by
  have hget : ∀ (b : Nat) (k : Spec.Block), (s.blocks ++ [(⟨v, .mine⟩ : Spec.Block)])[b]? = some k →
      s.blocks[b]? = some k ∨ (b = s.blocks.length ∧ k = ⟨v, .mine⟩) := by
    intro b k hk
    rw [List.getElem?_append] at hk
    split at hk
    · exact Or.inl hk
    · right
      rw [List.getElem?_singleton] at hk
      split at hk
      · cases hk; exact ⟨by omega, rfl⟩
      · cases hk
  have hold : ∀ (b : Nat) (k : Spec.Block), s.blocks[b]? = some k → (s.blocks ++ [(⟨v, .mine⟩ : Spec.Block)])[b]? = some k := by
    intro b k hk
    obtain ⟨hb, -⟩ := List.getElem?_eq_some_iff.1 hk
    rw [List.getElem?_append_left hb]
    exact hk
  constructor
  · exact h.lenO
  · simp [State.alloc, Spec.State.addBlock, h.lenB]
  · exact h.live
  · exact h.dead
  · exact h.part
  · intro j oj soj hj hsj hroot
    obtain ⟨a, k, b, c⟩ := h.root j oj soj hj hsj hroot
    exact ⟨a, k, hold _ k b, c⟩
  · intro b k hk
    rcases hget b k hk with hk | ⟨hb, hk1⟩
    · have := h.blocks b k hk
      obtain ⟨hb, -⟩ := List.getElem?_eq_some_iff.1 this
      simp only [State.alloc]
      rw [List.getElem?_append_left hb, this]
      rfl
    · subst hb hk1
      simp [State.alloc, ← h.lenB, blockOf]
  · intro b k i hk hst
    rcases hget b k hk with hk | ⟨hb, hk⟩
    · exact h.lent b k i hk hst
    · subst hk; cases hst
  · exact h.deb

/-- A block changes hands. -/
theorem Inv.setStat {m : State} {s : Spec.State} {d : Option Nat} {b : Nat} {k : Spec.Block} (h : Inv m s d) (hk : s.blocks[b]? = some k)
    (hl : ∀ i, k.stat = .lent i → m.live i = false) (t : Spec.Stat) (ht : ∀ i, t ≠ .lent i) :
    Inv ⟨m.blocks.set b (if t = .mine then some k.vals else none), m.objs⟩ (s.setStat b t) d := by
  have hget : ∀ b' k', (s.setStat b t).blocks[b']? = some k' →
      (b' = b ∧ k' = { k with stat := t }) ∨ (b' ≠ b ∧ s.blocks[b']? = some k') := by
    intro b' k' hk'
    simp only [Spec.State.setStat, List.getElem?_modify] at hk'
    by_cases e : b = b'
    · subst e
      rw [hk] at hk'
      simp at hk'
      exact Or.inl ⟨rfl, hk'.symm⟩
    · right
      cases hb : s.blocks[b']? <;> rw [hb] at hk' <;> simp [e] at hk'
      exact ⟨fun e' => e e'.symm, by rw [hk']⟩
  constructor
  · exact h.lenO
  · simp [Spec.State.setStat, h.lenB]
  · exact h.live
  · exact h.dead
  · exact h.part
  · intro j oj soj hj hsj hroot
    obtain ⟨a, k', b', c, c'⟩ := h.root j oj soj hj hsj hroot
    refine ⟨a, k', ?_, c, c'⟩
    have : b ≠ oj.block := by
      intro e
      rw [← e, hk] at b'
      cases b'
      have := hl j c
      have hlj : m.live j = true := live_iff.2 ⟨oj, hj⟩
      rw [hlj] at this
      cases this
    simp only [Spec.State.setStat, List.getElem?_modify, b', if_neg this]
    rfl
  · intro b' k' hk'
    have hm := h.blocks b k hk
    rw [getElem?_set' hm]
    rcases hget b' k' hk' with ⟨e1, e2⟩ | ⟨e1, e2⟩
    · subst e1 e2
      rw [if_pos rfl]
      unfold blockOf
      cases t with
      | mine => rfl
      | gone => rfl
      | lent i => exact absurd rfl (ht i)
    · rw [if_neg (fun e => e1 e.symm), h.blocks b' k' e2]
      rfl
  · intro b' k' i hk' hst
    rcases hget b' k' hk' with ⟨e1, e2⟩ | ⟨e1, e2⟩
    · subst e1 e2
      exact absurd hst (ht i)
    · exact h.lent b' k' i e2 hst
  · exact h.deb

/-- A new object. -/
theorem Inv.append {m : State} {s : Spec.State} {d : Option Nat} (h : Inv m s d) (o : Obj) (so : Spec.Obj)
    (bl : List Spec.Block) (e1 : o.block = so.block) (e2 : o.off = so.off) (e3 : o.count = so.count)
    (e4 : o.free = freeOf so.kind so.block) (e5 : o.refs = 1) (e6 : so.own = 1)
    (hlen : bl.length = s.blocks.length)
    (hd : d = match so.kind with | .part p => some p | _ => none)
    (hpart : ∀ p : Nat, so.kind = .part p → ∃ po : Obj, m.objs[p]? = some (some po) ∧
      o.block = po.block ∧ po.off ≤ o.off ∧ o.off + o.count ≤ po.off + po.count)
    (hroot : IsRoot so.kind → o.off = 0 ∧ ∃ k : Spec.Block, bl[o.block]? = some k ∧ k.stat = .lent s.objs.length ∧
      o.off + o.count ≤ k.vals.length)
    (hbl : ∀ (b : Nat) (k : Spec.Block), bl[b]? = some k → s.blocks[b]? = some k ∨
      (IsRoot so.kind ∧ b = so.block ∧ s.blocks[b]? = some ⟨k.vals, .mine⟩ ∧ k.stat = .lent s.objs.length))
    (hkeep : ∀ (b : Nat) (k : Spec.Block) (i : Nat), s.blocks[b]? = some k → k.stat = .lent i → bl[b]? = some k) :
    Inv ⟨m.blocks, m.objs ++ [some o]⟩ ⟨bl, s.objs ++ [so]⟩ none := by
  have hL := h.lenO
  have hget : ∀ (j : Nat) (x : Option Obj), (m.objs ++ [some o])[j]? = some x →
      (j < s.objs.length ∧ m.objs[j]? = some x) ∨ (j = s.objs.length ∧ x = some o) := by
    intro j x hx
    rw [List.getElem?_append] at hx
    split at hx
    · exact Or.inl ⟨by omega, hx⟩
    · right
      rw [List.getElem?_singleton] at hx
      split at hx
      · cases hx; exact ⟨by omega, rfl⟩
      · cases hx
  have hmold : ∀ (j : Nat) (x : Option Obj), m.objs[j]? = some x → (m.objs ++ [some o])[j]? = some x := by
    intro j x hx
    obtain ⟨hb, -⟩ := List.getElem?_eq_some_iff.1 hx
    rw [List.getElem?_append_left hb]
    exact hx
  have hsold : ∀ (j : Nat) (x : Spec.Obj), s.objs[j]? = some x → (s.objs ++ [so])[j]? = some x := by
    intro j x hx
    obtain ⟨hb, -⟩ := List.getElem?_eq_some_iff.1 hx
    rw [List.getElem?_append_left hb]
    exact hx
  have hsnew : (s.objs ++ [so])[s.objs.length]? = some so := by simp
  have hch : ∀ j, (⟨m.blocks, m.objs ++ [some o]⟩ : State).children j = m.children j + (if d = some j then 1 else 0) := by
    intro j
    unfold State.children
    rw [List.countP_append, List.countP_singleton]
    congr 1
    simp only [isPart, e4, hd]
    cases so.kind <;> simp [freeOf]
  have hch0 : m.children s.objs.length = 0 := by
    rw [State.children, List.countP_eq_zero]
    intro x hx hp
    cases x with
    | none => cases hp
    | some oj =>
      obtain ⟨j, hj⟩ := List.mem_iff_getElem?.1 hx
      obtain ⟨hj', -⟩ := List.getElem?_eq_some_iff.1 hj
      have := (h.part j oj _ hj (by simpa [isPart] using hp)).1
      omega
  have hdL : ∀ j, d = some j → j < s.objs.length := by
    intro j e
    obtain ⟨oj, hj⟩ := live_iff.1 (h.deb j e)
    obtain ⟨hj', -⟩ := List.getElem?_eq_some_iff.1 hj
    omega
  have hlv : ∀ j, j < s.objs.length → (⟨m.blocks, m.objs ++ [some o]⟩ : State).live j = m.live j := by
    intro j hj
    unfold State.live
    rw [List.getElem?_append_left (by omega)]
  have hstc : ∀ j, j < s.objs.length → staticB ⟨bl, s.objs ++ [so]⟩ j = staticB s j := by
    intro j hj
    unfold staticB
    rw [List.getElem?_append_left (by omega)]
  constructor
  · simp [hL]
  · simp [hlen, h.lenB]
  · intro j oj hj
    rw [hch]
    rcases hget j _ hj with ⟨hlt, hj⟩ | ⟨ej, eo⟩
    · obtain ⟨so', a1, a2, a3, a4, a5, a6, a7⟩ := h.live j oj hj
      exact ⟨so', hsold j so' a1, a2, a3, a4, a5, by simp; omega, a7⟩
    · cases eo; subst ej
      refine ⟨so, hsnew, e1, e2, e3, e4, ?_, by omega⟩
      rw [hch0, if_neg (fun e => Nat.lt_irrefl _ (hdL _ e))]
      simp [e5, e6]
  · intro j hj
    rw [hch]
    rcases hget j _ hj with ⟨hlt, hj⟩ | ⟨ej, eo⟩
    · obtain ⟨⟨so', a1, a2⟩, a3, a4⟩ := h.dead j hj
      exact ⟨⟨so', hsold j so' a1, a2⟩, by rw [if_neg a4]; omega, by simp⟩
    · cases eo
  · intro j oj p hj hf
    rcases hget j _ hj with ⟨hlt, hj⟩ | ⟨ej, eo⟩
    · obtain ⟨b1, po, b2, b3⟩ := h.part j oj p hj hf
      exact ⟨b1, po, hmold _ _ b2, b3⟩
    · cases eo; subst ej
      have hk : so.kind = .part p := by
        rw [e4] at hf
        cases hk : so.kind <;> simp [hk, freeOf] at hf
        rw [hf]
      obtain ⟨po, b2, b3⟩ := hpart p hk
      obtain ⟨hp, -⟩ := List.getElem?_eq_some_iff.1 b2
      exact ⟨by omega, po, hmold _ _ b2, b3⟩
  · intro j oj soj hj hsj hr
    rcases hget j _ hj with ⟨hlt, hj⟩ | ⟨ej, eo⟩
    · replace hsj : (s.objs ++ [so])[j]? = some soj := hsj
      rw [List.getElem?_append_left hlt] at hsj
      obtain ⟨a, k, b, c, c'⟩ := h.root j oj soj hj hsj hr
      exact ⟨a, k, hkeep _ k j b c, c, c'⟩
    · cases eo; subst ej
      replace hsj : (s.objs ++ [so])[s.objs.length]? = some soj := hsj
      rw [hsnew] at hsj
      cases hsj
      exact hroot hr
  · intro b k hk
    show m.blocks[b]? = _
    rcases hbl b k hk with hk | ⟨hr, hb, hk, hst⟩
    · rw [h.blocks b k hk]
      unfold blockOf
      cases hst : k.stat with
      | mine => rfl
      | gone => rfl
      | lent i =>
        obtain ⟨so', a, -⟩ := h.lent b k i hk hst
        obtain ⟨hi, -⟩ := List.getElem?_eq_some_iff.1 a
        simp only [hlv i hi, hstc i hi]
    · rw [h.blocks b _ hk]
      unfold blockOf
      rw [hst]
      have : (⟨m.blocks, m.objs ++ [some o]⟩ : State).live s.objs.length = true :=
        live_iff.2 ⟨o, by rw [← hL]; simp⟩
      simp [this]
  · intro b k i hk hst
    rcases hbl b k hk with hk | ⟨hr, hb, hk, hst'⟩
    · obtain ⟨so', a, c⟩ := h.lent b k i hk hst
      exact ⟨so', hsold _ _ a, c⟩
    · rw [hst'] at hst
      cases hst
      exact ⟨so, hsnew, hb.symm, hr⟩
  · intro j e; cases e

/-- An object of a block of the program. -/
theorem Inv.give {m : State} {s : Spec.State} {b n : Nat} (h : Inv m s none) (hb : s.mine b n) (k : Spec.Kind) (hk : IsRoot k) :
    (newWithFreeFunc m b 0 n (freeOf k b)).2 = (match (s.give b n k).2 with | .ints r => r | _ => none) ∧
    (∃ r, (s.give b n k).2 = .ints r) ∧
    Inv (newWithFreeFunc m b 0 n (freeOf k b)).1 (s.give b n k).1 none := by
  obtain ⟨kk, hb, hst, hn⟩ := hb
  unfold newWithFreeFunc Spec.State.give
  by_cases h0 : n = 0
  · rw [if_pos h0, if_pos h0]
    exact ⟨rfl, ⟨_, rfl⟩, h⟩
  · rw [if_neg h0, if_neg h0]
    refine ⟨by rw [h.lenO], ⟨_, rfl⟩, ?_⟩
    have hget : ∀ b' k', (s.setStat b (.lent s.objs.length)).blocks[b']? = some k' →
        (b' = b ∧ k' = { kk with stat := .lent s.objs.length }) ∨ (s.blocks[b']? = some k') := by
      intro b' k' hk'
      simp only [Spec.State.setStat, List.getElem?_modify] at hk'
      by_cases e : b = b'
      · subst e
        rw [hb] at hk'
        simp at hk'
        exact Or.inl ⟨rfl, hk'.symm⟩
      · right
        cases hb : s.blocks[b']? <;> rw [hb] at hk' <;> simp [e] at hk'
        rw [hk']
    have hbget : (s.setStat b (.lent s.objs.length)).blocks[b]? = some { kk with stat := .lent s.objs.length } := by
      simp [Spec.State.setStat, hb]
    refine h.append ⟨b, 0, n, 1, freeOf k b⟩ ⟨1, k, b, 0, n⟩ _ rfl rfl rfl rfl rfl rfl ?_ ?_ ?_ ?_ ?_ ?_
    · simp [Spec.State.setStat]
    · dsimp only
      split
      · rename_i p; exact absurd rfl (hk p)
      · rfl
    · intro p e; exact absurd e (hk p)
    · intro _
      exact ⟨rfl, _, hbget, rfl, by simpa using hn⟩
    · intro b' k' hk'
      rcases hget b' k' hk' with ⟨e1, e2⟩ | hk'
      · right
        subst e1 e2
        refine ⟨hk, rfl, ?_, rfl⟩
        rw [hb, ← hst]
      · exact Or.inl hk'
    · intro b' k' i hk' hst'
      have : b ≠ b' := by
        intro e; subst e
        rw [hb] at hk'; cases hk'
        rw [hst] at hst'; cases hst'
      simp [Spec.State.setStat, this, hk']

theorem Inv.addPart {m : State} {s : Spec.State} {i : Nat} {o : Obj} (h : Inv m s (some i)) (ho : m.objs[i]? = some (some o))
    (off n : Nat) (hoff : off + n ≤ o.count) :
    Inv ⟨m.blocks, m.objs ++ [some ⟨o.block, o.off + off, n, 1, .unref i⟩]⟩
      (s.addObj ⟨1, .part i, o.block, o.off + off, n⟩) none := by
  refine h.append ⟨o.block, o.off + off, n, 1, .unref i⟩ ⟨1, .part i, o.block, o.off + off, n⟩ s.blocks rfl rfl rfl rfl rfl rfl rfl rfl ?_ ?_ ?_ ?_
  · intro p e
    cases e
    exact ⟨o, ho, rfl, by simp, by simp; omega⟩
  · intro hr; exact absurd rfl (hr i)
  · intro b k hk; exact Or.inl hk
  · intro b k j hk _; exact hk

/-- The data of an object can be read. -/
theorem Inv.readable {m : State} {s : Spec.State} {d : Option Nat} (h : Inv m s d) (n : Nat) : ∀ (i : Nat) (o : Obj), i < n →
    m.objs[i]? = some (some o) → ∃ k : Spec.Block, s.blocks[o.block]? = some k ∧ m.blocks[o.block]? = some (some k.vals) ∧
      o.off + o.count ≤ k.vals.length := by
  induction n with
  | zero => intro i o hi; omega
  | succ n ih =>
    intro i o hi ho
    obtain ⟨so, hs, e1, e2, e3, e4, e5, e6⟩ := h.live i o ho
    by_cases hr : IsRoot so.kind
    · obtain ⟨-, k, hk, hst, hle⟩ := h.root i o so ho hs hr
      refine ⟨k, hk, ?_, hle⟩
      rw [h.blocks _ k hk]
      unfold blockOf
      rw [hst]
      simp [live_iff.2 ⟨o, ho⟩]
    · have : ∃ p, so.kind = .part p := by
        cases hk : so.kind with
        | part p => exact ⟨p, rfl⟩
        | _ => exact absurd (by intro p; rw [hk]; simp) hr
      obtain ⟨p, hp⟩ := this
      obtain ⟨hpi, po, a1, a2, a3, a4⟩ := h.part i o p ho (by rw [e4, hp]; rfl)
      obtain ⟨k, c1, c2, c3⟩ := ih p po (by omega) a1
      exact ⟨k, by rw [a2]; exact c1, by rw [a2]; exact c2, by omega⟩

theorem Inv.read {m : State} {s : Spec.State} {d : Option Nat} (h : Inv m s d) {i : Nat} {o : Obj} {so : Spec.Obj}
    (ho : m.objs[i]? = some (some o)) (hs : s.objs[i]? = some so) :
    m.read o.block o.off o.count = .ok (s.data so) := by
  obtain ⟨so', hs', e1, e2, e3, -⟩ := h.live i o ho
  rw [hs] at hs'; cases hs'
  obtain ⟨k, a, b, c⟩ := h.readable _ i o (Nat.lt_succ_self i) ho
  unfold State.read Spec.State.data
  rw [b, ← e1, a, e2, e3]
  dsimp only
  rw [if_pos (by omega)]

/-- Whether the last reference to an object is dropped. -/
theorem Inv.last {m : State} {s : Spec.State} {i : Nat} {o : Obj} {so : Spec.Obj} (h : Inv m (s.dropOwn i) (some i))
    (ho : m.objs[i]? = some (some o)) (hs : s.objs[i]? = some so) (hk : IsRoot so.kind) :
    Spec.Kept (s.dropOwn i) i ↔ o.refs ≠ 1 := by
  by_cases hr : o.refs = 1
  · simp only [hr, ne_eq, not_true_eq_false, iff_false]
    intro hkept
    obtain ⟨so', hs', e1, e2, e3, e4, e5, e6⟩ := h.live i o ho
    have hkd : so'.kind = so.kind := by
      simp [Spec.State.dropOwn, hs] at hs'
      rw [← hs']
    have hroot : IsRoot so'.kind := by rw [hkd]; exact hk
    have key : ∀ bl, Inv ⟨bl, m.objs.set i none⟩ (s.dropOwn i) none → False := by
      intro bl hi
      have := (hi.kept_iff i).1 hkept
      obtain ⟨x, hx⟩ := live_iff.1 this
      simp [getElem?_set' ho] at hx
    cases hf : o.free with
    | null =>
      have := h.drop ho hr m.blocks rfl (h.blocks_keep ho (Or.inl hf))
      rw [hf] at this
      exact key _ this
    | unref p =>
      rw [e4] at hf
      cases hk' : so'.kind <;> simp [hk', freeOf] at hf
      exact hroot _ hk'
    | gfree b =>
      have hb : b = o.block := by
        rw [e4] at hf
        cases hk : so'.kind <;> simp [hk, freeOf] at hf
        omega
      subst hb
      obtain ⟨_, hbl⟩ := h.blocks_drop ho (Or.inl hf)
      have := h.drop ho hr (m.blocks.set o.block none) (by simp) hbl
      rw [hf] at this
      exact key _ this
    | user b =>
      have hb : b = o.block := by
        rw [e4] at hf
        cases hk : so'.kind <;> simp [hk, freeOf] at hf
        omega
      subst hb
      obtain ⟨_, hbl⟩ := h.blocks_drop ho (Or.inr hf)
      have := h.drop ho hr (m.blocks.set o.block none) (by simp) hbl
      rw [hf] at this
      exact key _ this
  · simp only [ne_eq, hr, not_false_eq_true, iff_true]
    have := h.dec ho hr
    rw [this.kept_iff]
    exact live_iff.2 ⟨_, by simp only [State.setObj, getElem?_set' ho, if_true]; rfl⟩

theorem toUInt32_sub {a b : Nat} (h : b ≤ a) (ha : a < 2 ^ 32) : toUInt32 ((a : Int) - (b : Int)) = a - b := by
  unfold toUInt32
  rw [← Int.ofNat_sub h, BitVec.ofInt_natCast, BitVec.toNat_ofNat]
  omega

/-- One step. -/
theorem Inv.step {m : State} {s : Spec.State} (h : Inv m s none) (op : Spec.Op) (hp : Spec.Pre s op) :
    ∃ m', exec m op = .ok (m', (Spec.next s op).2) ∧ Inv m' (Spec.next s op).1 none := by
  cases op with
  | alloc vals =>
    refine ⟨_, ?_, h.addBlock vals⟩
    simp only [exec, Spec.next, State.alloc, h.lenB]
  | free b =>
    obtain ⟨k, hk, hst, -⟩ := hp
    have hb := h.blocks b k hk
    unfold blockOf at hb
    rw [hst] at hb
    refine ⟨_, by rw [exec, release_ok hb, ok_bind]; rfl, ?_⟩
    exact h.setStat hk (by intro i e; rw [hst] at e; cases e) .gone (by simp)
  | new b n =>
    obtain ⟨k, hk, hst, hn⟩ := hp
    rw [exec, new, Spec.next]
    by_cases h0 : n = 0
    · rw [if_pos h0, if_pos h0]
      exact ⟨m, rfl, h⟩
    · rw [if_neg h0, if_neg h0]
      have hb := h.blocks b k hk
      unfold blockOf at hb
      rw [hst] at hb
      have hr : m.read b 0 n = .ok (k.vals.take n) := by
        unfold State.read
        rw [hb]
        dsimp only
        rw [if_pos (by omega)]
        rfl
      have h1 := h.addBlock (k.vals.take n)
      have hmine : (s.addBlock ⟨k.vals.take n, .mine⟩).mine s.blocks.length n :=
        ⟨⟨k.vals.take n, .mine⟩, by simp [Spec.State.addBlock], rfl, by simp; omega⟩
      obtain ⟨g1, ⟨r, g2⟩, g3⟩ := h1.give hmine .gfree (by intro p e; cases e)
      rw [g2] at g1
      dsimp only at g1
      rw [hr, ok_bind, hk, ok_bind]
      dsimp only
      refine ⟨_, ?_, g3⟩
      rw [g2]
      simp only [newTake, State.alloc, h.lenB] at g1 ⊢
      simp only [freeOf] at g1 ⊢
      rw [g1]
  | take b n =>
    obtain ⟨g1, ⟨r, g2⟩, g3⟩ := h.give hp .gfree (by intro p e; cases e)
    rw [g2] at g1
    dsimp only at g1
    refine ⟨_, ?_, g3⟩
    rw [exec, Spec.next, g2, ← g1]
    rfl
  | static b n =>
    obtain ⟨g1, ⟨r, g2⟩, g3⟩ := h.give hp .static (by intro p e; cases e)
    rw [g2] at g1
    dsimp only at g1
    refine ⟨_, ?_, g3⟩
    rw [exec, Spec.next, g2, ← g1]
    rfl
  | user b n =>
    obtain ⟨g1, ⟨r, g2⟩, g3⟩ := h.give hp .user (by intro p e; cases e)
    rw [g2] at g1
    dsimp only at g1
    refine ⟨_, ?_, g3⟩
    rw [exec, Spec.next, g2, ← g1]
    rfl
  | part i off n =>
    obtain ⟨⟨so, hs, hown⟩, hn, hlt⟩ := hp
    obtain ⟨o, ho⟩ := h.owned hs hown
    obtain ⟨so', hs', e1, e2, e3, -⟩ := h.live i o ho
    rw [hs] at hs'; cases hs'
    rw [exec, newFromInts, obj_ok ho, ok_bind, Spec.next, hs]
    dsimp only
    rw [← e3]
    by_cases hoff : off < o.count
    · rw [if_pos hoff, if_pos hoff, Nat.mod_eq_of_lt hlt, ref, obj_ok ho, ok_bind, ok_bind, ok_bind]
      have hend : (if off + n > o.count then o.count else off + n) = off + min n (o.count - off) := by
        split <;> omega
      rw [hend, toUInt32_sub (by omega) (by omega)]
      have hsub : off + min n (o.count - off) - off = min n (o.count - off) := by omega
      rw [hsub]
      unfold newWithFreeFunc
      rw [if_neg (by omega)]
      dsimp only
      rw [List.length_set, h.lenO]
      refine ⟨_, rfl, ?_⟩
      rw [← e1, ← e2]
      have hi := h.inc ho
      refine hi.addPart (o := { o with refs := o.refs + 1 }) ?_ off (min n (o.count - off)) (by simp; omega)
      simp only [State.setObj, getElem?_set' ho, if_true]
    · rw [if_neg hoff, if_neg hoff]
      exact ⟨m, rfl, h⟩
  | ref i =>
    obtain ⟨so, hs, hown⟩ := hp
    obtain ⟨o, ho⟩ := h.owned hs hown
    rw [exec, ref, obj_ok ho, ok_bind, ok_bind]
    exact ⟨_, rfl, (h.inc ho).addOwn hs⟩
  | unref i =>
    obtain ⟨so, hs, hown⟩ := hp
    have hi := h.dropOwn hs hown
    obtain ⟨hlt, -⟩ := List.getElem?_eq_some_iff.1 hs
    obtain ⟨m', r, inv⟩ := Inv.unref m.objs.length m i hi (by rw [h.lenO]; exact hlt)
    exact ⟨m', by rw [exec, r, ok_bind]; rfl, inv⟩
  | toData i =>
    obtain ⟨so, hs, hown, hstat⟩ := hp
    have hi := h.dropOwn hs hown
    obtain ⟨o, ho⟩ := h.owned hs hown
    obtain ⟨hlt, -⟩ := List.getElem?_eq_some_iff.1 hs
    have hrd := h.read ho hs
    obtain ⟨so', hs', e1, e2, e3, e4, e5, e6⟩ := h.live i o ho
    rw [hs] at hs'; cases hs'
    have hoa : (m.alloc (s.data so)).1.objs[i]? = some (some o) := ho
    rw [exec, unrefToData, obj_ok ho, ok_bind, Spec.next, hs]
    dsimp only
    by_cases hr : o.refs = 1
    · rw [if_pos hr]
      have hp1 : ∀ A : Prop, ∀ _ : Decidable A, A → ∀ (x y : Spec.State × Spec.Res), (if A then x else y) = x :=
        fun A _ a x y => if_pos a
      have hp2 : ∀ A : Prop, ∀ _ : Decidable A, ¬ A → ∀ (x y : Spec.State × Spec.Res), (if A then x else y) = y :=
        fun A _ a x y => if_neg a
      by_cases hg : so.kind = .gfree
      · have hroot : IsRoot so.kind := by rw [hg]; intro p e; cases e
        have hnk : ¬ Spec.Kept (s.dropOwn i) i := by rw [hi.last ho hs hroot]; simp [hr]
        rw [hp1 _ _ ⟨hg, hnk⟩]
        have hf : o.free = .gfree so.block := by rw [e4, hg]; rfl
        rw [if_pos (by rw [hf]; rfl), ok_bind]
        dsimp only
        obtain ⟨hoff, k, hk, hkst, -⟩ := h.root i o so ho hs hroot
        rw [if_pos hoff, e1, e3]
        refine ⟨_, rfl, ?_⟩
        obtain ⟨_, hbl⟩ := hi.blocks_drop ho (Or.inl (by rw [hf, e1]))
        have h1 := hi.drop ho hr (m.blocks.set o.block none) (by simp) hbl
        rw [hf] at h1
        dsimp only at h1
        have h2 := h1.setStat (b := o.block) (k := k) hk (by
          intro j e
          rw [hkst] at e
          cases e
          unfold State.live
          simp [getElem?_set' ho]) .mine (by simp)
        simp only [if_true, List.set_set] at h2
        have hm := h.blocks _ k hk
        have hm' : blockOf m s k = some k.vals := by
          unfold blockOf
          rw [hkst]
          simp [live_iff.2 ⟨o, ho⟩]
        rw [hm'] at hm
        obtain ⟨hlt', hm⟩ := List.getElem?_eq_some_iff.1 hm
        have : m.blocks.set o.block (some k.vals) = m.blocks := by
          rw [← hm, List.set_getElem_self]
        rw [this] at h2
        rw [← e1]
        exact h2
      · rw [hp2 _ _ (fun e => hg e.1)]
        have hng : ∀ b, o.free ≠ .gfree b := by
          intro b e
          rw [e4] at e
          cases hk : so.kind <;> simp [hk, freeOf] at e hg
        have hnn : o.free ≠ .null := by
          intro e
          have hk : so.kind = .static := by
            rw [e4] at e
            cases hk : so.kind <;> simp [hk, freeOf] at e
            rfl
          have hroot : IsRoot so.kind := by rw [hk]; intro p e; cases e
          have := (hi.last ho hs hroot).1 (hstat hk)
          exact this hr
        have hia := hi.addBlock (s.data so)
        obtain ⟨m', r, inv⟩ := Inv.unref (m.objs.length + 1) _ i hia (by rw [h.lenO]; omega)
        rw [Ints.unref, obj_ok hoa, ok_bind, if_pos hr, ifFree, if_neg hnn] at r
        have : copyAndFree m i o = .ok (m', (s.blocks.length, 0), o.count) := by
          rw [copyAndFree, hrd, ok_bind]
          have hal : m.alloc (s.data so) = ((m.alloc (s.data so)).1, s.blocks.length) := by
            simp [State.alloc, h.lenB]
          rw [hal]
          dsimp only
          have hlen : (m.alloc (s.data so)).1.objs.length = m.objs.length := rfl
          rw [hlen]
          cases hc : callFree (Ints.unref m.objs.length) (m.alloc (s.data so)).1 o.free with
          | error e => rw [hc] at r; cases r
          | ok m1 =>
            rw [hc, ok_bind] at r
            rw [ok_bind]
            have := Except.ok.inj r
            rw [this]
        have hg' : ¬ o.free.isGFree = true := by
          intro e
          cases hf : o.free with
          | gfree b => exact hng b hf
          | _ => rw [hf] at e; cases e
        rw [if_neg hg', this, ok_bind]
        dsimp only
        rw [if_pos rfl, e3]
        exact ⟨m', rfl, inv⟩
    · rw [if_neg hr]
      have hcond : ¬ (so.kind = .gfree ∧ ¬ Spec.Kept (s.dropOwn i) i) := by
        rintro ⟨hg, hnk⟩
        have hroot : IsRoot so.kind := by rw [hg]; intro p e; cases e
        exact hnk ((hi.last ho hs hroot).2 hr)
      rw [if_neg hcond]
      have hrd' : ({ m with objs := m.objs.set i (some { o with refs := o.refs - 1 }) } : State).read o.block o.off o.count
          = m.read o.block o.off o.count := rfl
      rw [copyData, hrd', hrd, ok_bind]
      dsimp only [State.alloc]
      rw [ok_bind]
      dsimp only
      rw [if_pos rfl, h.lenB]
      refine ⟨⟨m.blocks ++ [some (s.data so)], m.objs.set i (some { o with refs := o.refs - 1 })⟩, by rw [e3], ?_⟩
      exact (hi.addBlock (s.data so)).dec hoa hr

theorem Inv.run {ops : List Spec.Op} : ∀ {m : State} {s : Spec.State}, Inv m s none → Spec.Legal s ops →
    ∃ m', Ints.run m ops = .ok (m', (Spec.run s ops).2) ∧ Inv m' (Spec.run s ops).1 none := by
  induction ops with
  | nil => intro m s h _; exact ⟨m, rfl, h⟩
  | cons op t ih =>
    intro m s h hl
    obtain ⟨m1, r1, h1⟩ := h.step op hl.1
    obtain ⟨m2, r2, h2⟩ := ih h1 hl.2
    refine ⟨m2, ?_, h2⟩
    rw [Ints.run, r1, ok_bind]
    dsimp only
    rw [r2, ok_bind]
    rfl

theorem Inv.empty : Inv ⟨[], []⟩ ⟨[], []⟩ none := by
  constructor <;> simp

/-- What the invariant says about the data of the objects and the blocks of memory. -/
theorem Inv.lifetime {m : State} {s : Spec.State} (inv : Inv m s none) :
    (∀ (i : Nat) (o : Spec.Obj), s.objs[i]? = some o →
      (Spec.Kept s i → getData m i = .ok (s.data o) ∧ getCount m i = .ok o.count) ∧
      (¬ Spec.Kept s i → m.objs[i]? = some none)) ∧
    (∀ (b : Nat) (k : Spec.Block), s.blocks[b]? = some k →
      (Spec.Remains s k → m.blocks[b]? = some (some k.vals)) ∧
      (¬ Spec.Remains s k → m.blocks[b]? = some none)) ∧
    m.blocks.length = s.blocks.length := by
  refine ⟨?_, ?_, inv.lenB⟩
  · intro i o ho
    rw [inv.kept_iff]
    constructor
    · intro hl
      obtain ⟨mo, hm⟩ := live_iff.1 hl
      obtain ⟨so, a, -, -, e, -⟩ := inv.live i mo hm
      rw [ho] at a
      cases a
      constructor
      · rw [getData, obj_ok hm, ok_bind, inv.read hm ho]
      · rw [getCount, obj_ok hm, ok_bind, e]
    · intro hl
      rcases inv.obj_mem ho with hx | hx
      · exact hx
      · exact absurd (live_iff.2 hx) hl
  · intro b k hk
    have hb := inv.blocks b k hk
    have hex : Spec.Remains s k ↔ blockOf m s k = some k.vals := by
      unfold Spec.Remains blockOf
      cases hst : k.stat with
      | mine => simp
      | gone => simp
      | lent i =>
        have hst : (∃ o, s.objs[i]? = some o ∧ o.kind = .static) ↔ staticB s i = true := by
          unfold staticB
          cases s.objs[i]? <;> simp
        simp only [inv.kept_iff, hst]
        rw [← Bool.or_eq_true]
        split <;> simp_all
    constructor
    · intro he; rw [hb, hex.1 he]
    · intro he
      rw [hb]
      rw [hex] at he
      unfold blockOf at he ⊢
      split at he <;> simp_all

end Verif.Ints
