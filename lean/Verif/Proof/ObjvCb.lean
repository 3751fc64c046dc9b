import Verif.Model.ObjvCb
import Verif.Proof.ObjvRun

namespace Verif.ObjvCb
open Verif.C Verif.Objv
open Verif.Strv.Spec (Holds firstIndex lastIndex)
open Verif.Strv (mk mk_length mk_cons deref_mk drop_map_ptr memmove_mk)
open Verif.Objv.Spec (Op Accounted Covered)

abbrev SState := Objv.Spec.State

/-! ### Sums over vectors -/

def total (E : Nat → List Nat) (n x : Nat) : Nat := ((List.range n).map (fun v => (E v).count x)).sum

def upd {α : Type} (f : Nat → α) (v : Nat) (y : α) : Nat → α := fun w => if w = v then y else f w

theorem upd_self {α : Type} (f : Nat → α) (v : Nat) (y : α) : upd f v y v = y := if_pos rfl
theorem upd_ne {α : Type} (f : Nat → α) {v w : Nat} (y : α) (h : w ≠ v) : upd f v y w = f w := if_neg h

theorem total_succ (E : Nat → List Nat) (n x : Nat) : total E (n + 1) x = total E n x + (E n).count x := by
  simp [total, List.range_succ]

theorem total_congr {E F : Nat → List Nat} {n x : Nat} (h : ∀ v, v < n → E v = F v) : total E n x = total F n x := by
  induction n with
  | zero => rfl
  | succ n ih =>
    rw [total_succ, total_succ, ih (fun v hv => h v (by omega)), h n (by omega)]

theorem total_upd (E : Nat → List Nat) {n v : Nat} (l : List Nat) (x : Nat) (h : v < n) :
    total (upd E v l) n x + (E v).count x = total E n x + l.count x := by
  induction n with
  | zero => omega
  | succ n ih =>
    rw [total_succ, total_succ]
    by_cases e : v = n
    · subst e
      rw [upd_self, total_congr (F := E) (fun w hw => upd_ne E l (by omega))]
      omega
    · rw [upd_ne E l (by omega)]
      have := ih (by omega)
      omega

theorem total_ge (E : Nat → List Nat) {n v : Nat} (x : Nat) (h : v < n) : (E v).count x ≤ total E n x := by
  induction n with
  | zero => omega
  | succ n ih =>
    rw [total_succ]
    by_cases e : v = n
    · subst e; omega
    · have := ih (by omega)
      omega

theorem total_le {E F : Nat → List Nat} (n x : Nat) (h : ∀ v, (E v).count x ≤ (F v).count x) : total E n x ≤ total F n x := by
  induction n with
  | zero => exact Nat.le_refl _
  | succ n ih =>
    rw [total_succ, total_succ]
    have := h n
    omega

theorem total_list (l : List (List Nat)) (x : Nat) : (l.map (List.count x)).sum = total (fun v => l[v]?.getD []) l.length x := by
  have e : l = (List.range l.length).map (fun v => l[v]?.getD []) := by
    apply List.ext_getElem
    · simp
    · intro i h1 h2; simp [List.getElem?_eq_getElem h1]
  conv => lhs; rw [e]
  rw [total, List.map_map]
  rfl

theorem refs_eq (t : SState) (x : Nat) : t.refs x = t.own x + total t.vec t.vecs.length x := by
  rw [Objv.Spec.State.refs, total_list]
  rfl

/-! ### The invariant -/

/-- The vector is at this address. -/
def Lives (s : State) (a : Option Nat) (os : List Nat) : Prop :=
  match a with
  | none => os = []
  | some a => ∃ n, s.blocks[a]? = some (some (mk os n))

/-- `A v` is where vector number `v` is now, and `E v` are those of its elements which it still has references to. `B` are the vectors
being changed, `N` is the number of objects. -/
structure Core (N : Nat) (s : State) (t : SState) (A : Nat → Option Nat) (E : Nat → List Nat) (B : List Nat) : Prop where
  len : s.vars.length = t.vecs.length
  inside : ∀ v ∈ B, v < s.vars.length
  out : ∀ v, s.vars.length ≤ v → A v = none ∧ E v = []
  quiet : ∀ v, v ∉ B → s.vars[v]?.getD none = A v ∧ E v = t.vec v ∧ Lives s (A v) (E v)
  inj : ∀ v w a, A v = some a → A w = some a → v = w
  alive : ∀ v a, A v = some a → ∃ b, s.blocks[a]? = some (some b)
  owned : ∀ a b, s.blocks[a]? = some (some b) → ∃ v, A v = some a
  cover : ∀ v x, (t.vec v).count x ≤ (E v).count x
  refs : ∀ x, cnt s.refs x = t.own x + total E s.vars.length x
  once : s.finalized.Nodup
  small : ∀ x, 0 < cnt s.refs x → x < N
  dead : ∀ x, x ∈ s.finalized ↔ x < N ∧ cnt s.refs x = 0

def FrameOk (s : State) (t : SState) (A : Nat → Option Nat) (E : Nat → List Nat) : Frame → Prop
  | .unref => True
  | .free v a i => A v = some a ∧ t.vec v = [] ∧ ∃ os n, s.blocks[a]? = some (some (mk os n)) ∧ i ≤ os.length ∧ E v = os.drop i
  | .remove v a pos len more => A v = some a ∧ ∃ os n, s.blocks[a]? = some (some (mk os n)) ∧ len = os.length ∧ pos < os.length ∧
    E v = os.eraseIdx pos ∧
    match more with
    | none => t.vec v = E v
    | some (o, p, l) => t.vec v = (E v).filter (fun a => decide (a ≠ o)) ∧ p + l ≤ (E v).length ∧
      (∀ a ∈ (E v).take p, decide (a = o) = false) ∧ ∀ a ∈ (E v).drop (p + l), decide (a = o) = false

/-- The pointer which the program has to the vector being changed: it's still where it was, or this memory is gone. -/
def Stale (s : State) (v a : Nat) : Prop :=
  s.vars[v]?.getD none = some a ∨ ∃ a', s.vars[v]?.getD none = some a' ∧ s.blocks[a']? = some none

/-- The object whose finalizer is running is still in the vector. -/
def Held (s : State) : Frame → Prop
  | .unref => True
  | .free v a i => Stale s v a ∧ ∃ b x, s.blocks[a]? = some (some b) ∧ 0 < i ∧ b[i - 1]? = some (.ptr x) ∧ x ∈ s.finalized
  | .remove v a pos _ _ => Stale s v a ∧ ∃ b x, s.blocks[a]? = some (some b) ∧ b[pos]? = some (.ptr x) ∧ x ∈ s.finalized

structure Inv (N : Nat) (s : State) (t : SState) (A : Nat → Option Nat) (E : Nat → List Nat) : Prop where
  core : Core N s t A E (busy s.stack)
  nodup : (busy s.stack).Nodup
  frames : ∀ f ∈ s.stack, FrameOk s t A E f
  held : ∀ f ∈ s.stack, Held s f

/-- Nothing changes except for the vector number `v`. -/
structure Apart (s s' : State) (t t' : SState) (A A' : Nat → Option Nat) (E E' : Nat → List Nat) (v : Nat) : Prop where
  addr : ∀ w, w ≠ v → A' w = A w
  elem : ∀ w, w ≠ v → E' w = E w
  vec : ∀ w, w ≠ v → t'.vec w = t.vec w
  blocks : ∀ w a, w ≠ v → A w = some a → s'.blocks[a]? = s.blocks[a]?
  vars : ∀ w, w ≠ v → s'.vars[w]?.getD none = s.vars[w]?.getD none
  gone : ∀ a : Nat, s.blocks[a]? = some none → s'.blocks[a]? = some none
  fin : ∀ x ∈ s.finalized, x ∈ s'.finalized

theorem Apart.refl (s : State) (t : SState) (A : Nat → Option Nat) (E : Nat → List Nat) (v : Nat) : Apart s s t t A A E E v :=
  ⟨fun _ _ => rfl, fun _ _ => rfl, fun _ _ => rfl, fun _ _ _ _ => rfl, fun _ _ => rfl, fun _ h => h, fun _ h => h⟩

theorem Apart.trans {s s' s'' : State} {t t' t'' : SState} {A A' A'' : Nat → Option Nat} {E E' E'' : Nat → List Nat} {v : Nat}
    (h : Apart s s' t t' A A' E E' v) (h' : Apart s' s'' t' t'' A' A'' E' E'' v) : Apart s s'' t t'' A A'' E E'' v where
  addr w hw := (h'.addr w hw).trans (h.addr w hw)
  elem w hw := (h'.elem w hw).trans (h.elem w hw)
  vec w hw := (h'.vec w hw).trans (h.vec w hw)
  blocks w a hw ha := (h'.blocks w a hw ((h.addr w hw).trans ha)).trans (h.blocks w a hw ha)
  vars w hw := (h'.vars w hw).trans (h.vars w hw)
  gone a ha := h'.gone a (h.gone a ha)
  fin x hx := h'.fin x (h.fin x hx)

theorem Apart.lives {s s' : State} {t t' : SState} {A A' : Nat → Option Nat} {E E' : Nat → List Nat} {v w : Nat}
    (h : Apart s s' t t' A A' E E' v) (hw : w ≠ v) (hl : Lives s (A w) (E w)) : Lives s' (A' w) (E' w) := by
  rw [h.addr w hw, h.elem w hw]
  cases hA : A w with
  | none => rw [hA] at hl; exact hl
  | some a =>
    rw [hA] at hl
    obtain ⟨n, hn⟩ := hl
    exact ⟨n, (h.blocks w a hw hA).trans hn⟩

theorem Apart.frame {s s' : State} {t t' : SState} {A A' : Nat → Option Nat} {E E' : Nat → List Nat} {v : Nat}
    (h : Apart s s' t t' A A' E E' v) {f : Frame} (hv : v ∉ busy [f]) (hf : FrameOk s t A E f) : FrameOk s' t' A' E' f := by
  cases f with
  | unref => trivial
  | free w a i =>
    have hw : w ≠ v := by rintro rfl; exact hv (by simp [busy])
    obtain ⟨h1, h2, os, n, h3, h4, h5⟩ := hf
    exact ⟨(h.addr w hw).trans h1, (h.vec w hw).trans h2, os, n, (h.blocks w a hw h1).trans h3, h4, (h.elem w hw).trans h5⟩
  | remove w a pos len more =>
    have hw : w ≠ v := by rintro rfl; exact hv (by simp [busy])
    obtain ⟨h1, os, n, h3, h4, h5, h6, h7⟩ := hf
    refine ⟨(h.addr w hw).trans h1, os, n, (h.blocks w a hw h1).trans h3, h4, h5, (h.elem w hw).trans h6, ?_⟩
    rw [h.elem w hw, h.vec w hw]
    exact h7

theorem Apart.stale {s s' : State} {t t' : SState} {A A' : Nat → Option Nat} {E E' : Nat → List Nat} {v w a : Nat}
    (h : Apart s s' t t' A A' E E' v) (hw : w ≠ v) (hs : Stale s w a) : Stale s' w a := by
  unfold Stale at *
  rw [h.vars w hw]
  rcases hs with e | ⟨a', e, g⟩
  · exact .inl e
  · exact .inr ⟨a', e, h.gone a' g⟩

theorem Apart.held {s s' : State} {t t' : SState} {A A' : Nat → Option Nat} {E E' : Nat → List Nat} {v : Nat}
    (h : Apart s s' t t' A A' E E' v) {f : Frame} (hv : v ∉ busy [f]) (hf : FrameOk s t A E f) (hh : Held s f) : Held s' f := by
  cases f with
  | unref => trivial
  | free w a i =>
    have hw : w ≠ v := by rintro rfl; exact hv (by simp [busy])
    obtain ⟨g1, b, x, g2, g3, g4, g5⟩ := hh
    exact ⟨h.stale hw g1, b, x, (h.blocks w a hw hf.1).trans g2, g3, g4, h.fin x g5⟩
  | remove w a pos len more =>
    have hw : w ≠ v := by rintro rfl; exact hv (by simp [busy])
    obtain ⟨g1, b, x, g2, g4, g5⟩ := hh
    exact ⟨h.stale hw g1, b, x, (h.blocks w a hw hf.1).trans g2, g4, h.fin x g5⟩

theorem busy_cons (f : Frame) (l : List Frame) : busy (f :: l) = busy [f] ++ busy l := by
  cases f <;> rfl

theorem Apart.frames {s s' : State} {t t' : SState} {A A' : Nat → Option Nat} {E E' : Nat → List Nat} {v : Nat}
    (h : Apart s s' t t' A A' E E' v) {l : List Frame} (hv : v ∉ busy l) (hf : ∀ f ∈ l, FrameOk s t A E f) :
    ∀ f ∈ l, FrameOk s' t' A' E' f := by
  induction l with
  | nil => intro f hm; cases hm
  | cons g l ih =>
    rw [busy_cons, List.mem_append, not_or] at hv
    intro f hm
    rcases List.mem_cons.mp hm with rfl | hm
    · exact h.frame hv.1 (hf f List.mem_cons_self)
    · exact ih hv.2 (fun f hm => hf f (List.mem_cons_of_mem _ hm)) f hm

theorem Apart.allHeld {s s' : State} {t t' : SState} {A A' : Nat → Option Nat} {E E' : Nat → List Nat} {v : Nat}
    (h : Apart s s' t t' A A' E E' v) {l : List Frame} (hv : v ∉ busy l) (hf : ∀ f ∈ l, FrameOk s t A E f) (hh : ∀ f ∈ l, Held s f) :
    ∀ f ∈ l, Held s' f := by
  induction l with
  | nil => intro f hm; cases hm
  | cons g l ih =>
    rw [busy_cons, List.mem_append, not_or] at hv
    intro f hm
    rcases List.mem_cons.mp hm with rfl | hm
    · exact h.held hv.1 (hf f List.mem_cons_self) (hh f List.mem_cons_self)
    · exact ih hv.2 (fun f hm => hf f (List.mem_cons_of_mem _ hm)) (fun f hm => hh f (List.mem_cons_of_mem _ hm)) f hm

/-! ### The steps -/

theorem block_ok {s : State} {a : Nat} {b : Block} (h : s.blocks[a]? = some (some b)) : block s a = .ok b := by
  rw [block, h]

/-- Dropping a reference which the program itself or one of the vectors has -/
theorem core_unref {N : Nat} {s : State} {t t' : SState} {A : Nat → Option Nat} {E E' : Nat → List Nat} {B : List Nat} {x : Nat}
    (h : Core N s t A E B) (hvecs : t'.vecs = t.vecs)
    (hE : ∀ v, E' v = E v ∨ v ∈ B ∧ v < s.vars.length)
    (hcov : ∀ v y, (t'.vec v).count y ≤ (E' v).count y)
    (hcount : ∀ y, t'.own y + total E' s.vars.length y + (if y = x then 1 else 0) = t.own y + total E s.vars.length y) :
    ∃ s' called, unref s x = .ok (s', called) ∧ Core N s' t' A E' B ∧ s'.blocks = s.blocks ∧ s'.vars = s.vars ∧ s'.stack = s.stack ∧
      (∀ y ∈ s.finalized, y ∈ s'.finalized) ∧ (called = true → x ∈ s'.finalized) := by
  have hx : 0 < cnt s.refs x := by
    have h1 := hcount x
    have h2 := h.refs x
    rw [if_pos rfl] at h1
    omega
  obtain ⟨c, h1, h2⟩ := objUnref_ok hx
  have hsmall : ∀ y, 0 < cnt c y → y < N := fun y hy => h.small y (by have := h2 y; omega)
  have hvec : ∀ v, t'.vec v = t.vec v := fun v => by unfold Objv.Spec.State.vec; rw [hvecs]
  have hrefs : ∀ y, cnt c y = t'.own y + total E' s.vars.length y := by
    intro y
    have := hcount y
    have := h2 y
    have := h.refs y
    omega
  have hout : ∀ v, s.vars.length ≤ v → A v = none ∧ E' v = [] := by
    intro v hv
    refine ⟨(h.out v hv).1, ?_⟩
    rcases hE v with e | ⟨_, e⟩
    · rw [e]; exact (h.out v hv).2
    · omega
  have hquiet : ∀ v, v ∉ B → s.vars[v]?.getD none = A v ∧ E' v = t'.vec v ∧ Lives s (A v) (E' v) := by
    intro v hv
    obtain ⟨q1, q2, q3⟩ := h.quiet v hv
    rcases hE v with e | ⟨e, _⟩
    · rw [e, hvec]; exact ⟨q1, q2, q3⟩
    · exact absurd e hv
  have hnot : x ∉ s.finalized := fun hm => by have := ((h.dead x).mp hm).2; omega
  by_cases hz : cnt c x = 0
  · refine ⟨{ s with refs := c, finalized := s.finalized ++ [x] }, true, ?_,
      ⟨by rw [hvecs]; exact h.len, h.inside, hout, hquiet, h.inj, h.alive, h.owned, hcov, hrefs, ?_, hsmall, ?_⟩, rfl, rfl, rfl,
      fun y hy => List.mem_append_left _ hy, fun _ => List.mem_append_right _ List.mem_cons_self⟩
    · rw [unref, h1, ok_bind, if_pos hz]
    · refine List.nodup_append.mpr ⟨h.once, by simp, ?_⟩
      intro a ha b hb
      rw [List.mem_singleton.mp hb]
      rintro rfl
      exact hnot ha
    · intro y
      show y ∈ s.finalized ++ [x] ↔ y < N ∧ cnt c y = 0
      rw [List.mem_append, List.mem_singleton, h.dead y]
      have := h2 y
      by_cases e : y = x
      · subst e
        have := h.small y hx
        simp [hz, this]
      · rw [if_neg e] at this
        simp only [e, or_false]
        rw [← this, Nat.add_zero]
  · refine ⟨{ s with refs := c }, false, ?_,
      ⟨by rw [hvecs]; exact h.len, h.inside, hout, hquiet, h.inj, h.alive, h.owned, hcov, hrefs, h.once, hsmall, ?_⟩, rfl, rfl, rfl, fun y hy => hy,
      fun e => absurd e (by decide)⟩
    · rw [unref, h1, ok_bind, if_neg hz]
    · intro y
      show y ∈ s.finalized ↔ y < N ∧ cnt c y = 0
      rw [h.dead y]
      have := h2 y
      by_cases e : y = x
      · subst e
        constructor
        · rintro ⟨_, e⟩; omega
        · rintro ⟨_, e⟩; exact absurd e hz
      · rw [if_neg e] at this
        rw [← this, Nat.add_zero]

/-- The same for a vector which is being changed -/
theorem core_drop {N : Nat} {s : State} {t : SState} {A : Nat → Option Nat} {E : Nat → List Nat} {B : List Nat} {v x : Nat} {l : List Nat}
    (h : Core N s t A E B) (hv : v ∈ B) (hl : ∀ y, l.count y + (if y = x then 1 else 0) = (E v).count y)
    (hcov : ∀ y, (t.vec v).count y ≤ l.count y) :
    ∃ s' called, unref s x = .ok (s', called) ∧ Core N s' t A (upd E v l) B ∧ Apart s s' t t A A E (upd E v l) v ∧
      s'.blocks = s.blocks ∧ s'.vars = s.vars ∧ s'.stack = s.stack ∧ (called = true → x ∈ s'.finalized) := by
  have hlt := h.inside v hv
  obtain ⟨s', called, h1, h2, h3, h4, h5, h6, h7⟩ := core_unref (t' := t) (E' := upd E v l) (x := x) h rfl
    (by
      intro w
      by_cases e : w = v
      · subst e; exact .inr ⟨hv, hlt⟩
      · exact .inl (upd_ne E l e))
    (by
      intro w y
      by_cases e : w = v
      · subst e; rw [upd_self]; exact hcov y
      · rw [upd_ne E l e]; exact h.cover w y)
    (by
      intro y
      have := total_upd E l y hlt
      have := hl y
      omega)
  refine ⟨s', called, h1, h2, ⟨fun _ _ => rfl, fun w hw => upd_ne E l hw, fun _ _ => rfl, fun _ _ _ _ => by rw [h3],
    fun _ _ => by rw [h4], fun a ha => by rw [h3]; exact ha, h6⟩, h3, h4, h5, h7⟩

theorem set_gone {l : List (Option Block)} {a b : Nat} (h : l[b]? = some none) : (l.set a none)[b]? = some none := by
  by_cases e : a = b
  · subst e; exact List.getElem?_set_self (List.getElem?_eq_some_iff.mp h).1
  · rw [List.getElem?_set_ne e]; exact h

theorem get_set_none {l : List (Option Block)} {a b : Nat} (h : a ≠ b) : (l.set a none)[b]? = l[b]? := List.getElem?_set_ne h

/-- Moving the vector, having removed an element -/
theorem core_shift {N : Nat} {s : State} {t : SState} {A : Nat → Option Nat} {E : Nat → List Nat} {B : List Nat} {v a n pos : Nat} {os : List Nat}
    (h : Core N s t A E B) (hv : v ∈ B) (ha : A v = some a) (hb : s.blocks[a]? = some (some (mk os n))) (hp : pos < os.length) :
    ∃ s' a', shift s a pos os.length = .ok (s', a') ∧ Core N s' t (upd A v (some a')) E B ∧
      Apart s s' t t A (upd A v (some a')) E E v ∧ s'.blocks[a']? = some (some (mk (os.eraseIdx pos) 0)) ∧
      s'.vars = s.vars ∧ s'.stack = s.stack ∧ s'.blocks[a]? = some none := by
  obtain ⟨b, hm, hr⟩ := memmove_mk os n pos hp
  have hal : a < s.blocks.length := by
    apply Classical.byContradiction
    intro hn
    rw [List.getElem?_eq_none (by omega)] at hb
    cases hb
  refine ⟨{ s with blocks := s.blocks.set a none ++ [some (mk (os.eraseIdx pos) 0)] }, (s.blocks.set a none).length, ?_, ?_, ?_, ?_, rfl, rfl, ?_⟩
  · rw [shift, block_ok hb, ok_bind, hm, ok_bind, release, block_ok hb, ok_bind, ok_bind, hr]
  · have hother : ∀ w, w ≠ v → upd A v (some (s.blocks.set a none).length) w = A w := fun w hw => upd_ne A _ hw
    have hfresh : ∀ w c, A w = some c → c < s.blocks.length := by
      intro w c hc
      obtain ⟨b, hb⟩ := h.alive w c hc
      exact (List.getElem?_eq_some_iff.mp hb).1
    have hkeep : ∀ w c, w ≠ v → A w = some c →
        (s.blocks.set a none ++ [some (mk (os.eraseIdx pos) 0)])[c]? = s.blocks[c]? := by
      intro w c hw hc
      have hlt := hfresh w c hc
      rw [List.getElem?_append_left (by simpa using hlt)]
      exact get_set_none (fun e => hw (h.inj w v c hc (by rw [← e]; exact ha)))
    refine ⟨h.len, h.inside, ?_, ?_, ?_, ?_, ?_, h.cover, h.refs, h.once, h.small, h.dead⟩
    · intro w hw
      have hw' : s.vars.length ≤ w := hw
      have := h.inside v hv
      rw [hother w (by omega)]
      exact h.out w hw'
    · intro w hw
      have hne : w ≠ v := by rintro rfl; exact hw hv
      obtain ⟨q1, q2, q3⟩ := h.quiet w hw
      rw [hother w hne]
      refine ⟨q1, q2, ?_⟩
      cases hA : A w with
      | none => rw [hA] at q3; exact q3
      | some c =>
        rw [hA] at q3
        obtain ⟨n, hn⟩ := q3
        exact ⟨n, (hkeep w c hne hA).trans hn⟩
    · intro w1 w2 c h1 h2
      by_cases e1 : w1 = v
      · by_cases e2 : w2 = v
        · rw [e1, e2]
        · rw [e1, upd_self] at h1
          rw [hother w2 e2] at h2
          have := hfresh w2 c h2
          cases h1
          simp at this
      · by_cases e2 : w2 = v
        · rw [e2, upd_self] at h2
          rw [hother w1 e1] at h1
          have := hfresh w1 c h1
          cases h2
          simp at this
        · rw [hother w1 e1] at h1
          rw [hother w2 e2] at h2
          exact h.inj w1 w2 c h1 h2
    · intro w c hc
      by_cases e : w = v
      · rw [e, upd_self] at hc
        cases hc
        exact ⟨mk (os.eraseIdx pos) 0, by simp⟩
      · rw [hother w e] at hc
        obtain ⟨b, hb⟩ := h.alive w c hc
        exact ⟨b, (hkeep w c e hc).trans hb⟩
    · intro c b hcb
      have hcb' : (s.blocks.set a none ++ [some (mk (os.eraseIdx pos) 0)])[c]? = some (some b) := hcb
      by_cases hlt : c < s.blocks.length
      · rw [List.getElem?_append_left (by simpa using hlt)] at hcb'
        by_cases e : a = c
        · subst e
          rw [List.getElem?_set_self hlt] at hcb'
          cases hcb'
        · rw [get_set_none e] at hcb'
          obtain ⟨w, hw⟩ := h.owned c b hcb'
          exact ⟨w, by rw [hother w (by rintro rfl; rw [ha] at hw; exact e (Option.some.inj hw))]; exact hw⟩
      · have hl : c < (s.blocks.set a none ++ [some (mk (os.eraseIdx pos) 0)]).length := (List.getElem?_eq_some_iff.mp hcb').1
        simp only [List.length_append, List.length_set, List.length_cons, List.length_nil] at hl
        exact ⟨v, by rw [upd_self, List.length_set]; congr 1; omega⟩
  · refine ⟨fun w hw => upd_ne A _ hw, fun _ _ => rfl, fun _ _ => rfl, ?_, fun _ _ => rfl, ?_, fun _ hx => hx⟩
    · intro w c hw hc
      obtain ⟨b, hb'⟩ := h.alive w c hc
      have hlt := (List.getElem?_eq_some_iff.mp hb').1
      show (s.blocks.set a none ++ [some (mk (os.eraseIdx pos) 0)])[c]? = s.blocks[c]?
      rw [List.getElem?_append_left (by simpa using hlt)]
      exact get_set_none (fun e => hw (h.inj w v c hc (by rw [← e]; exact ha)))
    · intro c hc
      show (s.blocks.set a none ++ [some (mk (os.eraseIdx pos) 0)])[c]? = some none
      rw [List.getElem?_append_left (by simpa using (List.getElem?_eq_some_iff.mp hc).1)]
      exact set_gone hc
  · simp
  · show (s.blocks.set a none ++ [some (mk (os.eraseIdx pos) 0)])[a]? = some none
    rw [List.getElem?_append_left (by simpa using hal)]
    exact List.getElem?_set_self hal

/-- The program updates its pointer at the end of the call. -/
theorem core_assign {N : Nat} {s : State} {t : SState} {A : Nat → Option Nat} {E : Nat → List Nat} {B : List Nat} {v : Nat}
    (h : Core N s t A E (v :: B)) (hl : Lives s (A v) (E v)) (he : E v = t.vec v) :
    Core N { s with vars := s.vars.set v (A v) } t A E B := by
  have hlt := h.inside v List.mem_cons_self
  refine ⟨by simpa using h.len, fun w hw => by simpa using h.inside w (List.mem_cons_of_mem _ hw), ?_, ?_, h.inj, h.alive, h.owned, h.cover, ?_, h.once,
    h.small, h.dead⟩
  · intro w hw
    exact h.out w (by simpa using hw)
  · intro w hw
    by_cases e : w = v
    · subst e
      refine ⟨?_, he, hl⟩
      show (s.vars.set w (A w))[w]?.getD none = A w
      rw [List.getElem?_set_self hlt]
      rfl
    · obtain ⟨q1, q2, q3⟩ := h.quiet w (by simp only [List.mem_cons, not_or]; exact ⟨e, hw⟩)
      refine ⟨?_, q2, q3⟩
      show (s.vars.set v (A v))[w]?.getD none = A w
      rw [List.getElem?_set_ne (Ne.symm e)]
      exact q1
  · intro x
    show cnt s.refs x = t.own x + total E (s.vars.set v (A v)).length x
    rw [List.length_set]
    exact h.refs x

/-- The block is released. -/
theorem core_forget {N : Nat} {s : State} {t : SState} {A : Nat → Option Nat} {E : Nat → List Nat} {B : List Nat} {v a : Nat}
    (h : Core N s t A E B) (hv : v ∈ B) (ha : A v = some a) :
    ∃ s', release s a = .ok s' ∧ Core N s' t (upd A v none) E B ∧
      Apart s s' t t A (upd A v none) E E v ∧ s'.stack = s.stack ∧ s'.vars = s.vars := by
  obtain ⟨b, hb⟩ := h.alive v a ha
  have hkeep : ∀ w c, w ≠ v → A w = some c → (s.blocks.set a none)[c]? = s.blocks[c]? := by
    intro w c hw hc
    exact get_set_none (fun e => hw (h.inj w v c hc (by rw [← e]; exact ha)))
  have hap : Apart s { s with blocks := s.blocks.set a none } t t A (upd A v none) E E v :=
    ⟨fun w hw => upd_ne A _ hw, fun _ _ => rfl, fun _ _ => rfl, hkeep, fun _ _ => rfl, fun _ h => set_gone h, fun _ h => h⟩
  refine ⟨{ s with blocks := s.blocks.set a none }, by rw [release, block_ok hb, ok_bind], ?_, hap, rfl, rfl⟩
  refine ⟨h.len, h.inside, ?_, ?_, ?_, ?_, ?_, h.cover, h.refs, h.once, h.small, h.dead⟩
  · intro w hw
    refine ⟨?_, (h.out w hw).2⟩
    by_cases e : w = v
    · rw [e, upd_self]
    · rw [upd_ne A _ e]; exact (h.out w hw).1
  · intro w hw
    have hne : w ≠ v := by rintro rfl; exact hw hv
    obtain ⟨q1, q2, q3⟩ := h.quiet w hw
    exact ⟨by rw [upd_ne A _ hne]; exact q1, q2, hap.lives hne q3⟩
  · intro w1 w2 c h1 h2
    by_cases e1 : w1 = v
    · rw [e1, upd_self] at h1; cases h1
    · by_cases e2 : w2 = v
      · rw [e2, upd_self] at h2; cases h2
      · rw [upd_ne A _ e1] at h1
        rw [upd_ne A _ e2] at h2
        exact h.inj w1 w2 c h1 h2
  · intro w c hc
    by_cases e : w = v
    · rw [e, upd_self] at hc; cases hc
    · rw [upd_ne A _ e] at hc
      obtain ⟨b, hb⟩ := h.alive w c hc
      exact ⟨b, (hkeep w c e hc).trans hb⟩
  · intro c b' hcb
    have hcb' : (s.blocks.set a none)[c]? = some (some b') := hcb
    by_cases e : a = c
    · subst e
      rw [List.getElem?_set_self (List.getElem?_eq_some_iff.mp hb).1] at hcb'
      cases hcb'
    · rw [get_set_none e] at hcb'
      obtain ⟨w, hw⟩ := h.owned c b' hcb'
      exact ⟨w, by rw [upd_ne A _ (by rintro rfl; rw [ha] at hw; exact e (Option.some.inj hw))]; exact hw⟩

/-- A new block -/
theorem core_put {N : Nat} {s : State} {t : SState} {A : Nat → Option Nat} {E : Nat → List Nat} {B : List Nat} {v : Nat} (b : Block)
    (h : Core N s t A E B) (hv : v ∈ B) (ha : A v = none) :
    Core N { s with blocks := s.blocks ++ [some b] } t (upd A v (some s.blocks.length)) E B ∧
      Apart s { s with blocks := s.blocks ++ [some b] } t t A (upd A v (some s.blocks.length)) E E v := by
  have hlt : ∀ w c, A w = some c → c < s.blocks.length := by
    intro w c hc
    obtain ⟨b, hb⟩ := h.alive w c hc
    exact (List.getElem?_eq_some_iff.mp hb).1
  have hkeep : ∀ w c, w ≠ v → A w = some c → (s.blocks ++ [some b])[c]? = s.blocks[c]? := by
    intro w c _ hc
    exact List.getElem?_append_left (hlt w c hc)
  have hap : Apart s { s with blocks := s.blocks ++ [some b] } t t A (upd A v (some s.blocks.length)) E E v :=
    ⟨fun w hw => upd_ne A _ hw, fun _ _ => rfl, fun _ _ => rfl, hkeep, fun _ _ => rfl,
      fun c hc => (List.getElem?_append_left (List.getElem?_eq_some_iff.mp hc).1).trans hc, fun _ h => h⟩
  refine ⟨⟨h.len, h.inside, ?_, ?_, ?_, ?_, ?_, h.cover, h.refs, h.once, h.small, h.dead⟩, hap⟩
  · intro w hw
    have hw' : s.vars.length ≤ w := hw
    have := h.inside v hv
    rw [upd_ne A _ (by omega)]
    exact h.out w hw'
  · intro w hw
    have hne : w ≠ v := by rintro rfl; exact hw hv
    obtain ⟨q1, q2, q3⟩ := h.quiet w hw
    exact ⟨by rw [upd_ne A _ hne]; exact q1, q2, hap.lives hne q3⟩
  · intro w1 w2 c h1 h2
    by_cases e1 : w1 = v
    · by_cases e2 : w2 = v
      · rw [e1, e2]
      · rw [e1, upd_self] at h1
        rw [upd_ne A _ e2] at h2
        have := hlt w2 c h2
        cases h1
        omega
    · by_cases e2 : w2 = v
      · rw [e2, upd_self] at h2
        rw [upd_ne A _ e1] at h1
        have := hlt w1 c h1
        cases h2
        omega
      · rw [upd_ne A _ e1] at h1
        rw [upd_ne A _ e2] at h2
        exact h.inj w1 w2 c h1 h2
  · intro w c hc
    by_cases e : w = v
    · rw [e, upd_self] at hc
      cases hc
      exact ⟨b, by simp⟩
    · rw [upd_ne A _ e] at hc
      obtain ⟨b, hb⟩ := h.alive w c hc
      exact ⟨b, (hkeep w c e hc).trans hb⟩
  · intro c b' hcb
    have hcb' : (s.blocks ++ [some b])[c]? = some (some b') := hcb
    by_cases hl : c < s.blocks.length
    · rw [List.getElem?_append_left hl] at hcb'
      obtain ⟨w, hw⟩ := h.owned c b' hcb'
      exact ⟨w, by rw [upd_ne A _ (by rintro rfl; rw [ha] at hw; cases hw)]; exact hw⟩
    · have := (List.getElem?_eq_some_iff.mp hcb').1
      simp only [List.length_append, List.length_cons, List.length_nil] at this
      exact ⟨v, by rw [upd_self]; congr 1; omega⟩

theorem core_stack {N : Nat} {s : State} {t : SState} {A : Nat → Option Nat} {E : Nat → List Nat} {B : List Nat} (st : List Frame)
    (h : Core N s t A E B) : Core N { s with stack := st } t A E B :=
  ⟨h.len, h.inside, h.out, h.quiet, h.inj, h.alive, h.owned, h.cover, h.refs, h.once, h.small, h.dead⟩

theorem vec_set (t : SState) {v : Nat} (l : List Nat) (hv : v < t.vecs.length) (w : Nat) :
    ({ t with vecs := t.vecs.set v l } : SState).vec w = if w = v then l else t.vec w := by
  unfold Objv.Spec.State.vec
  by_cases e : w = v
  · subst e
    dsimp only
    rw [List.getElem?_set_self hv, if_pos rfl]
    rfl
  · dsimp only
    rw [List.getElem?_set_ne (Ne.symm e), if_neg e]

/-- The vector is going to have other contents. -/
theorem core_start {N : Nat} {s : State} {t : SState} {A : Nat → Option Nat} {E : Nat → List Nat} {B : List Nat} {v : Nat}
    {c : Refs} {l os : List Nat} (h : Core N s t A E B) (hv : v < t.vecs.length) (hB : v ∉ B)
    (hcov : ∀ x, os.count x ≤ l.count x) (hacc : Accounted (cnt s.refs) (cnt c) (t.vec v) l)
    (hpos : ∀ x, cnt c x = 0 ↔ cnt s.refs x = 0) :
    Core N { s with refs := c } { t with vecs := t.vecs.set v os } A (upd E v l) (v :: B) ∧
      Apart s { s with refs := c } t { t with vecs := t.vecs.set v os } A A E (upd E v l) v := by
  have hlt : v < s.vars.length := by rw [h.len]; exact hv
  obtain ⟨q1, q2, q3⟩ := h.quiet v hB
  have hap : Apart s { s with refs := c } t { t with vecs := t.vecs.set v os } A A E (upd E v l) v :=
    ⟨fun _ _ => rfl, fun w hw => upd_ne E _ hw, fun w hw => by rw [vec_set t os hv, if_neg hw], fun _ _ _ _ => rfl, fun _ _ => rfl,
      fun _ h => h, fun _ h => h⟩
  refine ⟨⟨by simpa using h.len, ?_, ?_, ?_, h.inj, h.alive, h.owned, ?_, ?_, h.once, ?_, ?_⟩, hap⟩
  · intro w hw
    rcases List.mem_cons.mp hw with rfl | hw
    · exact hlt
    · exact h.inside w hw
  · intro w hw
    have hw' : s.vars.length ≤ w := hw
    rw [upd_ne E _ (by omega)]
    exact h.out w hw'
  · intro w hw
    rw [List.mem_cons, not_or] at hw
    obtain ⟨r1, r2, r3⟩ := h.quiet w hw.2
    refine ⟨r1, ?_, hap.lives hw.1 r3⟩
    rw [upd_ne E _ hw.1, vec_set t os hv, if_neg hw.1]
    exact r2
  · intro w x
    rw [vec_set t os hv]
    by_cases e : w = v
    · rw [if_pos e, e, upd_self]; exact hcov x
    · rw [if_neg e, upd_ne E _ e]; exact h.cover w x
  · intro x
    show cnt c x = t.own x + total (upd E v l) s.vars.length x
    have h1 := total_upd E l x hlt
    have h2 := hacc x
    have h3 := h.refs x
    rw [q2] at h1
    omega
  · intro x hx
    have hx' : 0 < cnt c x := hx
    have := hpos x
    exact h.small x (by omega)
  · intro x
    show x ∈ s.finalized ↔ x < N ∧ cnt c x = 0
    rw [h.dead x, hpos x]

/-- One more variable -/
theorem core_grow {N : Nat} {s : State} {t : SState} {A : Nat → Option Nat} {E : Nat → List Nat} {B : List Nat}
    (h : Core N s t A E B) : Core N { s with vars := s.vars ++ [none] } { t with vecs := t.vecs ++ [[]] } A E B ∧
      ∀ v, ({ t with vecs := t.vecs ++ [[]] } : SState).vec v = t.vec v := by
  have hvec : ∀ v, ({ t with vecs := t.vecs ++ [[]] } : SState).vec v = t.vec v := by
    intro v
    unfold Objv.Spec.State.vec
    dsimp only
    rw [List.getElem?_append]
    split
    · rfl
    · rename_i hn
      rw [List.getElem?_eq_none (l := t.vecs) (by omega)]
      by_cases e : v - t.vecs.length = 0
      · rw [e]; rfl
      · rw [List.getElem?_eq_none (by simp; omega)]
  have hlen : (s.vars ++ [none]).length = s.vars.length + 1 := by simp
  refine ⟨⟨by simp [h.len], fun w hw => by have := h.inside w hw; dsimp only; omega, ?_, ?_, h.inj, h.alive, h.owned, ?_, ?_, h.once, h.small, h.dead⟩, hvec⟩
  · intro w hw
    dsimp only at hw
    exact h.out w (by omega)
  · intro w hw
    obtain ⟨r1, r2, r3⟩ := h.quiet w hw
    refine ⟨?_, by rw [hvec]; exact r2, r3⟩
    rw [← r1]
    dsimp only
    rw [List.getElem?_append]
    split
    · rfl
    · rename_i hn
      rw [List.getElem?_eq_none (l := s.vars) (by omega)]
      by_cases e : w - s.vars.length = 0
      · rw [e]; rfl
      · rw [List.getElem?_eq_none (by simp; omega)]
  · intro w x
    rw [hvec]; exact h.cover w x
  · intro x
    show cnt s.refs x = t.own x + total E (s.vars ++ [none]).length x
    rw [hlen, total_succ, (h.out s.vars.length (Nat.le_refl _)).2, List.count_nil]
    exact h.refs x

end Verif.ObjvCb
