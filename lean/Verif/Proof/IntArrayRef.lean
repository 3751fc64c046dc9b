import Verif.Model.IntArrayRef

namespace Verif.IntArray.Ref
open Verif.C

/-- The array has these elements. -/
def Holds (s : State) (a : GArr) (v : Vals) : Prop :=
  (a.data = none ∧ a.len = 0 ∧ v = []) ∨ ∃ b, a.data = some b ∧ s.blocks[b]? = some (some v) ∧ a.len = v.length

/-- The array number `p` exists. -/
def Arr (s : State) (p : Nat) (a : GArr) : Prop := s.arrs[p]? = some (some a)

structure Rel (s : State) (d : Abs) : Prop where
  len : s.arrs.length = d.arrs.length
  arr : ∀ p a, Arr s p a → 0 < a.refs ∧ ∃ v, d.arrs[p]? = some (a.refs, v) ∧ Holds s a v
  gone : ∀ p : Nat, s.arrs[p]? = some none → ∃ v, d.arrs[p]? = some (0, v)
  glen : s.given.length = d.datas.length
  giv : ∀ k b : Nat, s.given[k]? = some b → ∃ x, d.datas[k]? = some x ∧ s.blocks[b]? = some x
  inj : ∀ p q a a' b, Arr s p a → Arr s q a' → a.data = some b → a'.data = some b → p = q
  sep : ∀ p a b, Arr s p a → a.data = some b → b ∉ s.given
  nodup : s.given.Nodup
  live : ∀ (b : Nat) v, s.blocks[b]? = some (some v) → b ∈ s.given ∨ ∃ p a, Arr s p a ∧ a.data = some b

theorem init_rel : Rel init Abs.init := by
  constructor <;> simp [init, Abs.init, Arr]

theorem Rel.get {s : State} {d : Abs} (h : Rel s d) {p : Nat} (hp : 0 < d.owners p) :
    ∃ a, Arr s p a ∧ s.arr p = .ok a ∧ a.refs = d.owners p ∧ 0 < a.refs ∧ Holds s a (d.vals p) ∧ p < s.arrs.length := by
  have hl : p < s.arrs.length := by
    apply Classical.byContradiction
    intro hn
    have : d.arrs[p]? = none := List.getElem?_eq_none (by rw [← h.len]; omega)
    simp [Abs.owners, this] at hp
  have he : s.arrs[p]? = some s.arrs[p] := List.getElem?_eq_getElem hl
  cases hx : s.arrs[p] with
  | none =>
    rw [hx] at he
    obtain ⟨v, hv⟩ := h.gone p he
    simp [Abs.owners, hv] at hp
  | some a =>
    rw [hx] at he
    obtain ⟨h1, v, h2, h3⟩ := h.arr p a he
    refine ⟨a, he, by simp [State.arr, he], by simp [Abs.owners, h2], h1, ?_, hl⟩
    have : d.vals p = v := by simp [Abs.vals, h2]
    rw [this]; exact h3

theorem get_set {α : Type} {l : List α} {p q : Nat} {x : α} (hp : p < l.length) : (l.set p x)[q]? = if q = p then some x else l[q]? := by
  rw [List.getElem?_set]
  by_cases h : q = p
  · subst h; simp [hp]
  · rw [if_neg (fun e => h e.symm), if_neg h]

theorem arr_set {s : State} {p q : Nat} {x : Option GArr} {a : GArr} {bl : List (Option Vals)} {g : List Nat} (hp : p < s.arrs.length) :
    Arr { s with arrs := s.arrs.set p x, blocks := bl, given := g } q a ↔ (q = p ∧ x = some a) ∨ (q ≠ p ∧ Arr s q a) := by
  unfold Arr
  dsimp only
  rw [get_set hp]
  by_cases h : q = p
  · subst h; simp
  · simp [h]

/-- Nothing but one array changes, and its block remains the same. -/
theorem keep_rel {s : State} {d : Abs} (h : Rel s d) {p : Nat} {a a' : GArr} {v : Vals} (ha : Arr s p a) (hp : p < s.arrs.length)
    (hd : a'.data = a.data) (hr : 0 < a'.refs) (hh : Holds s a' v) :
    Rel { s with arrs := s.arrs.set p (some a') } { d with arrs := d.arrs.set p (a'.refs, v) } := by
  have hq : p < d.arrs.length := h.len ▸ hp
  have key : ∀ q b, Arr { s with arrs := s.arrs.set p (some a') } q b ↔ (q = p ∧ some a' = some b) ∨ (q ≠ p ∧ Arr s q b) :=
    fun q b => arr_set (bl := s.blocks) (g := s.given) hp
  have data : ∀ q b, Arr { s with arrs := s.arrs.set p (some a') } q b → ∃ c, Arr s q c ∧ c.data = b.data := by
    intro q b hb
    rcases (key q b).mp hb with ⟨rfl, e⟩ | ⟨_, e⟩
    · cases e; exact ⟨a, ha, hd.symm⟩
    · exact ⟨b, e, rfl⟩
  refine ⟨by simp [h.len], ?_, ?_, h.glen, h.giv, ?_, ?_, h.nodup, ?_⟩
  · intro q b hb
    dsimp only
    rw [get_set hq]
    rcases (key q b).mp hb with ⟨rfl, e⟩ | ⟨e1, e⟩
    · cases e; exact ⟨hr, v, by simp, hh⟩
    · rw [if_neg e1]; exact h.arr q b e
  · intro q hb
    dsimp only at hb ⊢
    rw [get_set hp] at hb
    rw [get_set hq]
    by_cases e : q = p
    · rw [if_pos e] at hb; cases hb
    · rw [if_neg e] at hb ⊢; exact h.gone q hb
  · intro q r b c n h1 h2 h3 h4
    obtain ⟨x, x1, x2⟩ := data q b h1
    obtain ⟨y, y1, y2⟩ := data r c h2
    exact h.inj q r x y n x1 y1 (x2.trans h3) (y2.trans h4)
  · intro q b n h1 h2
    obtain ⟨x, x1, x2⟩ := data q b h1
    exact h.sep q x n x1 (x2.trans h2)
  · intro b w hb
    rcases h.live b w hb with h1 | ⟨q, c, h1, h2⟩
    · exact .inl h1
    · by_cases e : q = p
      · subst e
        have : c = a := by unfold Arr at h1 ha; rw [h1] at ha; cases ha; rfl
        subst this
        exact .inr ⟨q, a', (key q a').mpr (.inl ⟨rfl, rfl⟩), hd.trans h2⟩
      · exact .inr ⟨q, c, (key q c).mpr (.inr ⟨e, h1⟩), h2⟩

/-- The array loses its block, which is freed if there's one (`bl`) or given to the user (`g`), and one owner. -/
theorem drop_rel {s : State} {d : Abs} (h : Rel s d) {p : Nat} {a : GArr} {w : Vals} (ha : Arr s p a) (hp : p < s.arrs.length)
    (hr : a.refs = d.owners p) (hw : 1 < a.refs → w = []) {bl : List (Option Vals)} {g : List Nat} {ds : List (Option Vals)}
    (hg : (g = s.given ∧ ds = d.datas ∧ bl = (match a.data with | some b => s.blocks.set b none | none => s.blocks)) ∨
      (∃ b v, a.data = some b ∧ s.blocks[b]? = some (some v) ∧ g = s.given ++ [b] ∧ ds = d.datas ++ [some v] ∧ bl = s.blocks)) :
    Rel { s with arrs := s.arrs.set p (if a.refs = 1 then none else some { refs := a.refs - 1, data := none, len := 0 }), blocks := bl, given := g }
      { d.drop p w with datas := ds } := by
  have hq : p < d.arrs.length := h.len ▸ hp
  have h0 := (h.arr p a ha).1
  have key : ∀ q b, Arr { s with arrs := s.arrs.set p (if a.refs = 1 then none else some { refs := a.refs - 1, data := none, len := 0 }), blocks := bl, given := g } q b ↔
      (q = p ∧ (if a.refs = 1 then none else some { refs := a.refs - 1, data := none, len := 0 }) = some b) ∨ (q ≠ p ∧ Arr s q b) :=
    fun q b => arr_set hp
  have ne : ∀ q c b, q ≠ p → Arr s q c → c.data = some b → a.data ≠ some b := fun q c b h1 h2 h3 h4 => h1 (h.inj q p c a b h2 ha h3 h4)
  -- the blocks of others don't change
  have same : ∀ b : Nat, a.data ≠ some b → bl[b]? = s.blocks[b]? := by
    intro b hb
    rcases hg with ⟨_, _, e⟩ | ⟨_, _, _, _, _, _, e⟩
    · cases hx : a.data with
      | none => rw [hx] at e; rw [e]
      | some c =>
        rw [hx] at e
        rw [e]
        dsimp only
        rw [List.getElem?_set, if_neg (fun e' => hb (by rw [hx, e']))]
    · rw [e]
  refine ⟨by simp [h.len, Abs.drop], ?_, ?_, ?_, ?_, ?_, ?_, ?_, ?_⟩
  · intro q b hb
    simp only [Abs.drop]
    rw [get_set hq]
    rcases (key q b).mp hb with ⟨rfl, e⟩ | ⟨e1, e⟩
    · split at e
      · cases e
      · cases e
        rw [if_pos rfl]
        refine ⟨by simp only; omega, w, by simp [hr], .inl ⟨rfl, rfl, hw (by omega)⟩⟩
    · rw [if_neg e1]
      obtain ⟨h1, v, h2, h3⟩ := h.arr q b e
      refine ⟨h1, v, h2, ?_⟩
      rcases h3 with h3 | ⟨n, h3, h4, h5⟩
      · exact .inl h3
      · exact .inr ⟨n, h3, by simp only; rw [same n (ne q b n e1 e h3)]; exact h4, h5⟩
  · intro q hb
    simp only [Abs.drop] at hb ⊢
    rw [get_set hp] at hb
    rw [get_set hq]
    by_cases e : q = p
    · rw [if_pos e] at hb ⊢
      have : a.refs = 1 := by
        apply Classical.byContradiction
        intro hn
        rw [if_neg hn] at hb
        cases hb
      exact ⟨w, by rw [← hr, this]⟩
    · rw [if_neg e] at hb ⊢; exact h.gone q hb
  · rcases hg with ⟨e1, e2, _⟩ | ⟨b, v, _, _, e1, e2, _⟩
    · simp only [e1, e2]; exact h.glen
    · simp [e1, e2, h.glen]
  · intro k b hk
    simp only at hk ⊢
    rcases hg with ⟨e1, e2, _⟩ | ⟨c, v, e0, e3, e1, e2, e4⟩
    · rw [e1] at hk
      rw [e2]
      obtain ⟨x, h1, h2⟩ := h.giv k b hk
      exact ⟨x, h1, by rw [same b (fun e => h.sep p a b ha e (List.mem_of_getElem? hk))]; exact h2⟩
    · rw [e1] at hk
      rw [e2, e4]
      rw [List.getElem?_append] at hk ⊢
      split at hk
      · rename_i hlt
        rw [if_pos (h.glen ▸ hlt)]
        exact h.giv k b hk
      · rename_i hlt
        rw [if_neg (h.glen ▸ hlt), ← h.glen]
        cases hj : k - s.given.length with
        | zero => rw [hj] at hk; simp at hk; subst hk; exact ⟨some v, rfl, e3⟩
        | succ j => rw [hj] at hk; simp at hk
  · intro q r b c n h1 h2 h3 h4
    rcases (key q b).mp h1 with ⟨_, e⟩ | ⟨_, e⟩
    · split at e <;> cases e
      cases h3
    · rcases (key r c).mp h2 with ⟨_, e'⟩ | ⟨_, e'⟩
      · split at e' <;> cases e'
        cases h4
      · exact h.inj q r b c n e e' h3 h4
  · intro q b n h1 h2
    rcases (key q b).mp h1 with ⟨_, e⟩ | ⟨e1, e⟩
    · split at e <;> cases e
      cases h2
    · simp only
      rcases hg with ⟨e2, _, _⟩ | ⟨c, v, e0, _, e2, _, _⟩
      · rw [e2]; exact h.sep q b n e h2
      · rw [e2, List.mem_append, List.mem_singleton]
        rintro (h3 | h3)
        · exact h.sep q b n e h2 h3
        · exact ne q b n e1 e h2 (h3 ▸ e0)
  · rcases hg with ⟨e1, _, _⟩ | ⟨c, v, e0, _, e1, _, _⟩
    · simp only [e1]; exact h.nodup
    · simp only [e1]
      rw [List.nodup_append]
      refine ⟨h.nodup, by simp, fun x hx y hy e => ?_⟩
      rw [List.mem_singleton] at hy
      subst hy; subst e
      exact h.sep p a x ha e0 hx
  · intro b v hb
    simp only at hb ⊢
    have base : ∀ v, a.data ≠ some b → s.blocks[b]? = some (some v) → b ∈ s.given ∨ ∃ q c, Arr { s with arrs := s.arrs.set p (if a.refs = 1 then none else some { refs := a.refs - 1, data := none, len := 0 }), blocks := bl, given := g } q c ∧ c.data = some b := by
      intro v hn hs
      rcases h.live b v hs with h1 | ⟨q, c, h1, h2⟩
      · exact .inl h1
      · refine .inr ⟨q, c, (key q c).mpr (.inr ⟨?_, h1⟩), h2⟩
        intro e
        subst e
        have : c = a := by unfold Arr at h1 ha; rw [h1] at ha; cases ha; rfl
        subst this
        exact hn h2
    rcases hg with ⟨e1, _, e3⟩ | ⟨c, w', e0, _, e1, _, e3⟩
    · rw [e1]
      by_cases hab : a.data = some b
      · rw [hab] at e3
        rw [e3] at hb
        dsimp only at hb
        rw [List.getElem?_set] at hb
        simp at hb
      · rw [same b hab] at hb
        exact base v hab hb
    · rw [e1, List.mem_append, List.mem_singleton]
      by_cases hab : a.data = some b
      · rw [e0] at hab; cases hab
        exact .inl (.inr rfl)
      · rw [e3] at hb
        rcases base v hab hb with h1 | h1
        · exact .inl (.inl h1)
        · exact .inr h1

/-- `g_array_free` which frees the elements too -/
theorem free_all {s : State} {d : Abs} (h : Rel s d) {p : Nat} {a : GArr} {v w : Vals} (ha : Arr s p a) (hp : p < s.arrs.length)
    (hr : a.refs = d.owners p) (hh : Holds s a v) (hw : 1 < a.refs → w = []) :
    ∃ s', gArrayFree s p true = .ok (none, s') ∧ Rel s' (d.drop p w) := by
  have h0 := (h.arr p a ha).1
  have e : s.arr p = .ok a := by unfold Arr at ha; simp [State.arr, ha]
  refine ⟨{ s with arrs := s.arrs.set p (if a.refs = 1 then none else some { refs := a.refs - 1, data := none, len := 0 }),
                   blocks := match a.data with | some b => s.blocks.set b none | none => s.blocks }, ?_,
    drop_rel h ha hp hr hw (g := s.given) (.inl ⟨rfl, rfl, rfl⟩)⟩
  unfold gArrayFree
  rw [e]
  simp only [bind, Except.bind, if_neg (by omega : ¬ a.refs = 0), if_true]
  rcases hh with ⟨h1, _, _⟩ | ⟨b, h1, h2, _⟩
  · rw [h1]
  · rw [h1]; simp only [gFree, h2]

/-- `g_array_free` which returns the elements -/
theorem free_give {s : State} {d : Abs} (h : Rel s d) {p : Nat} {a : GArr} {v : Vals} (ha : Arr s p a) (hp : p < s.arrs.length)
    (hr : a.refs = d.owners p) (hh : Holds s a v) (hne : a.len ≠ 0) :
    ∃ b s', gArrayFree s p false = .ok (some b, s') ∧ s'.blocks[b]? = some (some v) ∧ a.len = v.length ∧ v ≠ [] ∧
      Rel { s' with given := s'.given ++ [b] } { d.drop p [] with datas := d.datas ++ [some v] } := by
  have h0 := (h.arr p a ha).1
  have e : s.arr p = .ok a := by unfold Arr at ha; simp [State.arr, ha]
  rcases hh with ⟨_, h1, _⟩ | ⟨b, h1, h2, h3⟩
  · exact absurd h1 hne
  · refine ⟨b, { s with arrs := s.arrs.set p (if a.refs = 1 then none else some { refs := a.refs - 1, data := none, len := 0 }) }, ?_, h2, h3,
      (by rintro rfl; exact hne h3), ?_⟩
    · unfold gArrayFree
      rw [e]
      simp only [bind, Except.bind, if_neg (by omega : ¬ a.refs = 0), h1]
      rfl
    · exact drop_rel h ha hp hr (fun _ => rfl) (bl := s.blocks) (.inr ⟨b, v, h1, h2, rfl, rfl, rfl⟩)

theorem change_rel {s : State} {d : Abs} (h : Rel s d) {p : Nat} (hp : 0 < d.owners p) {v : Vals} (hv : v.length < 2 ^ 32) :
    ∃ s', change s p v = .ok s' ∧ Rel s' { d with arrs := d.arrs.set p (d.owners p, v) } := by
  obtain ⟨a, ha, e, hr, h0, hh, hl⟩ := h.get hp
  have hq : p < d.arrs.length := h.len ▸ hl
  unfold change
  simp only [e, bind, Except.bind, if_pos hv]
  rcases hh with ⟨h1, h2, h3⟩ | ⟨b, h1, h2, h3⟩
  · rw [h1]
    dsimp only
    by_cases hn : v = []
    · rw [if_pos hn]
      refine ⟨s, rfl, ?_⟩
      have := keep_rel h (a' := a) (v := v) ha hl rfl h0 (.inl ⟨h1, h2, hn⟩)
      rw [hr] at this
      have e2 : s.arrs.set p (some a) = s.arrs := by
        apply List.ext_getElem?
        intro q
        rw [get_set hl]
        by_cases e' : q = p
        · subst e'; rw [if_pos rfl]; exact ha.symm
        · rw [if_neg e']
      rw [e2] at this
      exact this
    · rw [if_neg hn]
      refine ⟨_, rfl, ?_⟩
      have key : ∀ q b, Arr { s with blocks := s.blocks ++ [some v], arrs := s.arrs.set p (some { a with data := some s.blocks.length, len := v.length }) } q b ↔
        (q = p ∧ some { a with data := some s.blocks.length, len := v.length } = some b) ∨ (q ≠ p ∧ Arr s q b) := fun q b => arr_set hl
      have old : ∀ (b : Nat) w, s.blocks[b]? = some w → (s.blocks ++ [some v])[b]? = some w := by
        intro b w hb
        rw [List.getElem?_append, if_pos (List.getElem?_eq_some_iff.mp hb).1]
        exact hb
      have lt : ∀ q c b, Arr s q c → c.data = some b → b < s.blocks.length := by
        intro q c b h1 h2
        obtain ⟨_, w, _, h3⟩ := h.arr q c h1
        rcases h3 with ⟨h4, _⟩ | ⟨b', h4, h5, _⟩
        · rw [h4] at h2; cases h2
        · rw [h4] at h2; cases h2
          exact (List.getElem?_eq_some_iff.mp h5).1
      have glt : ∀ b ∈ s.given, b < s.blocks.length := by
        intro b hb
        obtain ⟨k, hk⟩ := List.getElem?_of_mem hb
        obtain ⟨x, _, h2⟩ := h.giv k b hk
        exact (List.getElem?_eq_some_iff.mp h2).1
      refine ⟨by simp [h.len], ?_, ?_, h.glen, ?_, ?_, ?_, h.nodup, ?_⟩
      · intro q c hc
        dsimp only
        rw [get_set hq]
        rcases (key q c).mp hc with ⟨rfl, e9⟩ | ⟨e1, e⟩
        · cases e9
          rw [if_pos rfl]
          exact ⟨h0, v, by simp [hr], .inr ⟨_, rfl, by simp, rfl⟩⟩
        · rw [if_neg e1]
          obtain ⟨x1, w, x2, x3⟩ := h.arr q c e
          refine ⟨x1, w, x2, ?_⟩
          rcases x3 with x3 | ⟨n, x3, x4, x5⟩
          · exact .inl x3
          · exact .inr ⟨n, x3, old _ _ x4, x5⟩
      · intro q hc
        dsimp only at hc ⊢
        rw [get_set hl] at hc
        rw [get_set hq]
        by_cases e : q = p
        · rw [if_pos e] at hc; cases hc
        · rw [if_neg e] at hc ⊢; exact h.gone q hc
      · intro k b hk
        obtain ⟨x, x1, x2⟩ := h.giv k b hk
        exact ⟨x, x1, old _ _ x2⟩
      · intro q r x y n y1 y2 y3 y4
        rcases (key q x).mp y1 with ⟨e1, e⟩ | ⟨e1, e⟩ <;> rcases (key r y).mp y2 with ⟨e1', e'⟩ | ⟨e1', e'⟩
        · exact e1.trans e1'.symm
        · cases e; cases y3; exact absurd (lt r y _ e' y4) (by omega)
        · cases e'; cases y4; exact absurd (lt q x _ e y3) (by omega)
        · exact h.inj q r x y n e e' y3 y4
      · intro q x n y1 y2
        rcases (key q x).mp y1 with ⟨e1, e⟩ | ⟨e1, e⟩
        · cases e; cases y2
          intro hm
          exact absurd (glt _ hm) (by omega)
        · exact h.sep q x n e y2
      · intro b w hb
        dsimp only at hb ⊢
        rw [List.getElem?_append] at hb
        split at hb
        · rcases h.live b w hb with h4 | ⟨q, c, h4, h5⟩
          · exact .inl h4
          · refine .inr ⟨q, c, (key q c).mpr (.inr ⟨?_, h4⟩), h5⟩
            rintro rfl
            have e3 : c = a := by unfold Arr at h4 ha; rw [h4] at ha; cases ha; rfl
            rw [e3, h1] at h5; cases h5
        · rename_i hlt
          have hb' : b = s.blocks.length := by
            cases hj : b - s.blocks.length with
            | zero => omega
            | succ j => rw [hj] at hb; simp at hb
          subst hb'
          exact .inr ⟨p, _, (key p _).mpr (.inl ⟨rfl, rfl⟩), rfl⟩
  · rw [h1]
    simp only [State.block, h2]
    have hb : b < s.blocks.length := (List.getElem?_eq_some_iff.mp h2).1
    -- only the block of this array changes
    have h' : Rel { s with blocks := s.blocks.set b (some v), arrs := s.arrs.set p (some { a with len := v.length }) } { d with arrs := d.arrs.set p (d.owners p, v) } := by
      have key : ∀ q c, Arr { s with blocks := s.blocks.set b (some v), arrs := s.arrs.set p (some { a with len := v.length }) } q c ↔
        (q = p ∧ some { a with len := v.length } = some c) ∨ (q ≠ p ∧ Arr s q c) := fun q c => arr_set hl
      have data : ∀ q c, Arr { s with blocks := s.blocks.set b (some v), arrs := s.arrs.set p (some { a with len := v.length }) } q c →
          ∃ x, Arr s q x ∧ x.data = c.data := by
        intro q c hc
        rcases (key q c).mp hc with ⟨rfl, e9⟩ | ⟨_, e⟩
        · cases e9; exact ⟨a, ha, rfl⟩
        · exact ⟨c, e, rfl⟩
      refine ⟨by simp [h.len], ?_, ?_, h.glen, ?_, ?_, ?_, h.nodup, ?_⟩
      · intro q c hc
        dsimp only
        rw [get_set hq]
        rcases (key q c).mp hc with ⟨rfl, e9⟩ | ⟨e1, e⟩
        · cases e9
          rw [if_pos rfl]
          exact ⟨h0, v, by simp [hr], .inr ⟨b, h1, by simp [hb], rfl⟩⟩
        · rw [if_neg e1]
          obtain ⟨x1, w, x2, x3⟩ := h.arr q c e
          refine ⟨x1, w, x2, ?_⟩
          rcases x3 with x3 | ⟨n, x3, x4, x5⟩
          · exact .inl x3
          · refine .inr ⟨n, x3, ?_, x5⟩
            dsimp only
            rw [get_set hb, if_neg]
            · exact x4
            · rintro rfl; exact e1 (h.inj q p c a n e ha x3 h1)
      · intro q hc
        dsimp only at hc ⊢
        rw [get_set hl] at hc
        rw [get_set hq]
        by_cases e : q = p
        · rw [if_pos e] at hc; cases hc
        · rw [if_neg e] at hc ⊢; exact h.gone q hc
      · intro k c hk
        obtain ⟨x, x1, x2⟩ := h.giv k c hk
        refine ⟨x, x1, ?_⟩
        dsimp only
        rw [get_set hb, if_neg]
        · exact x2
        · rintro rfl; exact h.sep p a c ha h1 (List.mem_of_getElem? hk)
      · intro q r x y n y1 y2 y3 y4
        obtain ⟨x', z1, z2⟩ := data q x y1
        obtain ⟨y', z3, z4⟩ := data r y y2
        exact h.inj q r x' y' n z1 z3 (z2.trans y3) (z4.trans y4)
      · intro q x n y1 y2
        obtain ⟨x', z1, z2⟩ := data q x y1
        exact h.sep q x' n z1 (z2.trans y2)
      · intro c w hc
        dsimp only at hc ⊢
        rw [get_set hb] at hc
        by_cases hne : c = b
        · subst hne
          exact .inr ⟨p, _, (key p _).mpr (.inl ⟨rfl, rfl⟩), h1⟩
        · rw [if_neg hne] at hc
          rcases h.live c w hc with h4 | ⟨q, x, h4, h5⟩
          · exact .inl h4
          · refine .inr ⟨q, x, (key q x).mpr (.inr ⟨?_, h4⟩), h5⟩
            rintro rfl
            have e3 : x = a := by unfold Arr at h4 ha; rw [h4] at ha; cases ha; rfl
            rw [e3, h1] at h5; cases h5; exact hne rfl
    rw [h1] at h'
    exact ⟨_, rfl, h'⟩

/-- A new empty array -/
theorem new_rel {s : State} {d : Abs} (h : Rel s d) :
    Rel { s with arrs := s.arrs ++ [some { refs := 1, data := none, len := 0 }] } { d with arrs := d.arrs ++ [(1, [])] } := by
  have key : ∀ q b, Arr { s with arrs := s.arrs ++ [some { refs := 1, data := none, len := 0 }] } q b ↔
      (q = s.arrs.length ∧ b = { refs := 1, data := none, len := 0 }) ∨ Arr s q b := by
    intro q b
    unfold Arr
    dsimp only
    rw [List.getElem?_append]
    split
    · rename_i hq
      exact ⟨.inr, fun h => h.resolve_left (by omega)⟩
    · rename_i hq
      have e : s.arrs[q]? = none := List.getElem?_eq_none (by omega)
      rw [e]
      cases hj : q - s.arrs.length with
      | zero =>
        simp
        constructor
        · rintro rfl; exact ⟨by omega, rfl⟩
        · rintro ⟨_, rfl⟩; rfl
      | succ j => simp; omega
  refine ⟨by simp [h.len], ?_, ?_, h.glen, h.giv, ?_, ?_, h.nodup, ?_⟩
  · intro q b hb
    dsimp only
    rcases (key q b).mp hb with ⟨rfl, rfl⟩ | e
    · exact ⟨by decide, [], by rw [h.len]; simp, .inl ⟨rfl, rfl, rfl⟩⟩
    · obtain ⟨h1, v, h2, h3⟩ := h.arr q b e
      exact ⟨h1, v, by rw [List.getElem?_append, if_pos (List.getElem?_eq_some_iff.mp h2).1]; exact h2, h3⟩
  · intro q hq
    dsimp only at hq ⊢
    rw [List.getElem?_append] at hq
    split at hq
    · obtain ⟨v, hv⟩ := h.gone q hq
      exact ⟨v, by rw [List.getElem?_append, if_pos (List.getElem?_eq_some_iff.mp hv).1]; exact hv⟩
    · cases hj : q - s.arrs.length with
      | zero => rw [hj] at hq; simp at hq
      | succ j => rw [hj] at hq; simp at hq
  · intro q r x y n y1 y2 y3 y4
    rcases (key q x).mp y1 with ⟨_, rfl⟩ | e
    · cases y3
    · rcases (key r y).mp y2 with ⟨_, rfl⟩ | e'
      · cases y4
      · exact h.inj q r x y n e e' y3 y4
  · intro q x n y1 y2
    rcases (key q x).mp y1 with ⟨_, rfl⟩ | e
    · cases y2
    · exact h.sep q x n e y2
  · intro b w hb
    rcases h.live b w hb with h4 | ⟨q, c, h4, h5⟩
    · exact .inl h4
    · exact .inr ⟨q, c, (key q c).mpr (.inr h4), h5⟩

theorem Rel.data {s : State} {d : Abs} (h : Rel s d) {k : Nat} (hk : d.has k) :
    ∃ b v, s.given[k]? = some b ∧ d.datas[k]? = some (some v) ∧ s.blocks[b]? = some (some v) := by
  obtain ⟨v, hv⟩ := hk
  have hl : k < s.given.length := by rw [h.glen]; exact (List.getElem?_eq_some_iff.mp hv).1
  have hb : s.given[k]? = some s.given[k] := List.getElem?_eq_getElem hl
  obtain ⟨x, h1, h2⟩ := h.giv k _ hb
  rw [hv] at h1
  cases h1
  exact ⟨_, v, hb, hv, h2⟩

theorem freeData_rel {s : State} {d : Abs} (h : Rel s d) {k b : Nat} (hb : s.given[k]? = some b) :
    Rel { s with blocks := s.blocks.set b none } { d with datas := d.datas.set k none } := by
  obtain ⟨x0, hd, hx⟩ := h.giv k b hb
  have hl : b < s.blocks.length := (List.getElem?_eq_some_iff.mp hx).1
  have hk : k < d.datas.length := (List.getElem?_eq_some_iff.mp hd).1
  have hm := List.mem_of_getElem? hb
  refine ⟨h.len, ?_, h.gone, by simp [h.glen], ?_, h.inj, h.sep, h.nodup, ?_⟩
  · intro q c hc
    obtain ⟨h1, v, h2, h3⟩ := h.arr q c hc
    refine ⟨h1, v, h2, ?_⟩
    rcases h3 with h3 | ⟨n, h3, h4, h5⟩
    · exact .inl h3
    · refine .inr ⟨n, h3, ?_, h5⟩
      dsimp only
      rw [get_set hl, if_neg]
      · exact h4
      · rintro rfl; exact h.sep q c n hc h3 hm
  · intro j c hj
    dsimp only at hj ⊢
    rw [get_set hk, get_set hl]
    by_cases e : j = k
    · subst e
      rw [hj] at hb; cases hb
      exact ⟨none, by simp, by simp⟩
    · rw [if_neg e, if_neg]
      · exact h.giv j c hj
      · rintro rfl
        have h1 := (List.getElem?_eq_some_iff.mp hj)
        have h2 := (List.getElem?_eq_some_iff.mp hb)
        obtain ⟨h1, h3⟩ := h1
        obtain ⟨h2, h4⟩ := h2
        exact e ((List.getElem_inj h.nodup).mp (h3.trans h4.symm))
  · intro c w hc
    dsimp only at hc ⊢
    rw [get_set hl] at hc
    split at hc
    · cases hc
    · exact h.live c w hc

theorem arr_eq {s : State} {p : Nat} {a : GArr} (h : Arr s p a) : s.arr p = .ok a := by unfold Arr at h; simp [State.arr, h]

theorem step_rel {s : State} {d : Abs} {o : Op} (h : Rel s d) (ha : d.Allowed o) :
    ∃ s', step s o = .ok ((d.next o).1, s') ∧ Rel s' (d.next o).2 := by
  cases o with
  | new v =>
    have h1 := new_rel h
    have hl : s.arrs.length = d.arrs.length := h.len
    obtain ⟨s', e, h2⟩ := change_rel h1 (p := s.arrs.length) (by simp [Abs.owners, hl]) (v := v) ha
    refine ⟨s', by simp [step, new, e, bind, Except.bind, Abs.next], ?_⟩
    have e2 : ({ d with arrs := d.arrs ++ [(1, [])] } : Abs).owners s.arrs.length = 1 := by simp [Abs.owners, hl]
    rw [e2, hl] at h2
    simpa [Abs.next] using h2
  | ref p =>
    obtain ⟨a, h1, e, hr, h0, hh, hl⟩ := h.get ha
    refine ⟨_, by simp [step, ref, gArrayRef, e, bind, Except.bind, Abs.next]; rfl, ?_⟩
    have := keep_rel h (a' := { a with refs := a.refs + 1 }) (v := d.vals p) h1 hl rfl (Nat.succ_pos _) hh
    simp only [hr] at this ⊢
    exact this
  | unref p =>
    obtain ⟨a, h1, e, hr, h0, hh, hl⟩ := h.get ha
    by_cases e1 : a.refs = 1
    · obtain ⟨s', h2, h3⟩ := free_all h h1 hl hr hh (w := d.vals p) (by omega)
      refine ⟨s', ?_, h3⟩
      simp [step, unref, gArrayUnref, e, bind, Except.bind, e1, h2, Abs.next]
    · refine ⟨_, by simp [step, unref, gArrayUnref, e, bind, Except.bind, e1, if_neg (by omega : ¬ a.refs = 0), Abs.next]; rfl, ?_⟩
      have := keep_rel h (a' := { a with refs := a.refs - 1 }) (v := d.vals p) h1 hl rfl (by simp only; omega) hh
      simp only [hr] at this ⊢
      exact this
  | free p fd =>
    obtain ⟨a, h1, e, hr, h0, hh, hl⟩ := h.get ha
    cases fd with
    | true =>
      obtain ⟨s', h2, h3⟩ := free_all h h1 hl hr hh (w := []) (fun _ => rfl)
      refine ⟨s', ?_, h3⟩
      simp [step, free, e, bind, Except.bind, h2, Abs.next]
    | false =>
      by_cases hz : a.len = 0
      · have hv : d.vals p = [] := by
          rcases hh with ⟨_, _, h5⟩ | ⟨b, _, _, h5⟩
          · exact h5
          · exact List.length_eq_zero_iff.mp (h5.symm.trans hz)
        obtain ⟨s', h2, h3⟩ := free_all h h1 hl hr hh (w := []) (fun _ => rfl)
        refine ⟨s', ?_, by simpa [Abs.next, hv] using h3⟩
        simp [step, free, e, bind, Except.bind, h2, hz, Abs.next, hv]
      · obtain ⟨b, s', h2, h3, h4, h5, h6⟩ := free_give h h1 hl hr hh hz
        refine ⟨{ s' with given := s'.given ++ [b] }, ?_, by simpa [Abs.next, h5] using h6⟩
        simp [step, free, e, bind, Except.bind, h2, Abs.next, h5, look, State.block, h3, h4]
  | toInts p =>
    obtain ⟨a, h1, e, hr, h0, hh, hl⟩ := h.get ha
    by_cases hz : a.len = 0
    · have hv : d.vals p = [] := by
        rcases hh with ⟨_, _, h5⟩ | ⟨b, _, _, h5⟩
        · exact h5
        · exact List.length_eq_zero_iff.mp (h5.symm.trans hz)
      obtain ⟨s', h2, h3⟩ := free_all h h1 hl hr hh (w := []) (fun _ => rfl)
      refine ⟨s', ?_, by simpa [Abs.next, hv] using h3⟩
      simp [step, freeToInts, free, e, bind, Except.bind, h2, hz, Abs.next, hv]
    · obtain ⟨b, s', h2, h3, h4, h5, h6⟩ := free_give h h1 hl hr hh hz
      refine ⟨{ s' with given := s'.given ++ [b] }, ?_, by simpa [Abs.next, h5] using h6⟩
      have hz' : ¬ (d.vals p).length = 0 := h4 ▸ hz
      simp [step, freeToInts, free, e, bind, Except.bind, h2, Abs.next, h5, look, State.block, h3, h4]
  | change p v =>
    obtain ⟨s', h2, h3⟩ := change_rel h ha.1 ha.2
    exact ⟨s', by simp [step, h2, bind, Except.bind, Abs.next], h3⟩
  | get p =>
    obtain ⟨a, h1, e, hr, h0, hh, hl⟩ := h.get ha
    refine ⟨s, ?_, h⟩
    simp only [step, contents, e, bind, Except.bind, Abs.next]
    rcases hh with ⟨h3, h4, h5⟩ | ⟨b, h3, h4, h5⟩
    · simp [h3, h4, h5]
    · simp [h3, State.block, h4, h5]
  | getData k =>
    obtain ⟨b, v, h1, h2, h3⟩ := h.data ha
    exact ⟨s, by simp [step, h1, State.block, h3, bind, Except.bind, Abs.next, h2], h⟩
  | freeData k =>
    obtain ⟨b, v, h1, h2, h3⟩ := h.data ha
    exact ⟨_, by simp [step, h1, gFree, h3, bind, Except.bind, Abs.next], freeData_rel h h1⟩

theorem run_rel {s : State} {d : Abs} (ops : List Op) (h : Rel s d) (ha : d.Follows ops) :
    ∃ s', run s ops = .ok (d.outs ops, s') ∧ Rel s' (d.final ops) := by
  induction ops generalizing s d with
  | nil => exact ⟨s, rfl, h⟩
  | cons o os ih =>
    obtain ⟨s1, e1, h1⟩ := step_rel h ha.1
    obtain ⟨s2, e2, h2⟩ := ih h1 ha.2
    exact ⟨s2, by simp [run, e1, e2, bind, Except.bind, Abs.outs], h2⟩

end Verif.IntArray.Ref
