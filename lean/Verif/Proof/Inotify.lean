import Verif.Model.Inotify

namespace Verif.Inotify
open Verif.C

def alive (x : Watch) : Bool := decide (0 < x.refs)

/-- `c` is the number of references to the instance apart from those of the watches, `e w` is that of references to the watch apart from those
which belong to the client. -/
structure Inv (c : Nat) (e : Nat → Nat) (s : State) : Prop where
  refs : ∀ i, s.inst = some i → i.refs = s.watches.countP alive + c
  pos : ∀ i, s.inst = some i → 0 < i.refs
  noInst : s.inst = none → c = 0 ∧ s.kernel = [] ∧ s.queue = [] ∧ s.nextWd = 1
  ptr : ∀ (w : Nat) (x : Watch), s.watches[w]? = some x → 0 < x.refs → ∃ i, s.inst = some i ∧ x.inst = i.id
  dead : ∀ (w : Nat) (x : Watch), s.watches[w]? = some x → x.refs = 0 → x.wd = none
  own : ∀ (w : Nat) (x : Watch), s.watches[w]? = some x → x.refs = x.owned + e w
  extra : ∀ w, s.watches.length ≤ w → e w = 0
  table : ∀ i, s.inst = some i → ∀ d w, (d, w) ∈ i.table → ∃ x, s.watches[w]? = some x ∧ x.wd = some d
  ids : ∀ i, s.inst = some i → i.id < s.nextInst

def upd (e : Nat → Nat) (w n : Nat) : Nat → Nat := fun v => if v = w then n else e v

theorem countP_alive_set {l : List Watch} {w : Nat} {x y : Watch} (h : l[w]? = some x) :
    (l.set w y).countP alive + (alive x).toNat = l.countP alive + (alive y).toNat := by
  obtain ⟨hw, hx⟩ := List.getElem?_eq_some_iff.1 h
  rw [List.countP_set hw, hx]
  have : alive x = true → 0 < l.countP alive := fun ha => List.countP_pos_iff.2 ⟨x, List.mem_of_getElem? h, ha⟩
  cases hx : alive x <;> cases hy : alive y <;> simp_all <;> omega

theorem lt_of_some {l : List Watch} {w : Nat} {x : Watch} (h : l[w]? = some x) : w < l.length := (List.getElem?_eq_some_iff.1 h).1

theorem getElem?_set {l : List Watch} {w : Nat} {x y : Watch} (h : l[w]? = some x) (v : Nat) :
    (l.set w y)[v]? = if v = w then some y else l[v]? := by
  have := lt_of_some h
  rw [List.getElem?_set]
  by_cases hv : w = v
  · subst hv
    simp [this]
  · rw [if_neg hv, if_neg (fun e => hv e.symm)]

theorem set_self {l : List Watch} {w : Nat} {x : Watch} (h : l[w]? = some x) : l.set w x = l := by
  apply List.ext_getElem?
  intro v
  rw [getElem?_set h]
  split
  · next hv => rw [hv, h]
  · rfl

theorem access_eq {s : State} {i : Inst} (h : s.inst = some i) : s.access i.id = .ok i := by
  unfold State.access
  rw [h]
  simp

theorem watch_eq {s : State} {w : Nat} {x : Watch} (h : s.watches[w]? = some x) (hx : 0 < x.refs) : s.watch w = .ok x := by
  unfold State.watch
  rw [h]
  dsimp only
  rw [if_neg (by omega)]

/-- The instance is gone -/
def closeSt (race : Option Nat) (s : State) (i : Inst) : State :=
  { s with inst := none, kernel := [], queue := [], nextWd := 1,
           foreign := (s.foreign ++ race.toList).erase i.fd, log := s.log ++ [.closed i.fd, .closed i.fd] }

theorem unrefInst_inv {race : Option Nat} {c : Nat} {e : Nat → Nat} {s : State} {i : Inst} (h : Inv (c + 1) e s) (hi : s.inst = some i) :
    ∃ s', unrefInst race s i.id = .ok s' ∧ Inv c e s' ∧
      ((i.refs = 1 ∧ c = 0 ∧ (∀ (w : Nat) (x : Watch), s.watches[w]? = some x → x.refs = 0) ∧ s' = closeSt race s i) ∨
       s' = { s with inst := some { i with refs := i.refs - 1 } }) := by
  unfold unrefInst
  rw [access_eq hi, ok_bind]
  have hr := h.refs i hi
  by_cases h1 : i.refs = 1
  · rw [if_pos h1]
    have hc : s.watches.countP alive = 0 := by omega
    have all : ∀ (w : Nat) (x : Watch), s.watches[w]? = some x → x.refs = 0 := by
      intro w x hw
      have := List.countP_eq_zero.1 hc x (List.mem_of_getElem? hw)
      simp [alive] at this
      exact this
    refine ⟨_, rfl, ?_, .inl ⟨h1, by omega, all, rfl⟩⟩
    constructor
    · intro i hi; cases hi
    · intro i hi; cases hi
    · intro _; exact ⟨by omega, rfl, rfl, rfl⟩
    · intro w x hw hx; have := all w x hw; omega
    · exact h.dead
    · exact h.own
    · exact h.extra
    · intro i hi; cases hi
    · intro i hi; cases hi
  · rw [if_neg h1]
    refine ⟨_, rfl, ?_, .inr rfl⟩
    have hp := h.pos i hi
    constructor
    · rintro j ⟨⟩; dsimp only; omega
    · rintro j ⟨⟩; dsimp only; omega
    · intro hn; cases hn
    · intro w x hw hx
      obtain ⟨j, hj, e⟩ := h.ptr w x hw hx
      rw [hi] at hj
      cases hj
      exact ⟨_, rfl, e⟩
    · exact h.dead
    · exact h.own
    · exact h.extra
    · rintro j ⟨⟩; exact h.table i hi
    · rintro j ⟨⟩; exact h.ids i hi

/-- The watch has been stopped, and its reference counter becomes `r`. -/
def stopSt (s : State) (w : Nat) (x : Watch) (r : Nat) : State :=
  match x.wd with
  | none => { s with watches := s.watches.set w { x with refs := r } }
  | some wd => { kernelRemove s wd with inst := s.inst.map (fun i => { i with table := tableRemove i.table wd }),
                                        watches := s.watches.set w { x with wd := none, refs := r }, log := s.log ++ [.stopped w] }

theorem kernelRemove_fields (s : State) (wd : Nat) : (kernelRemove s wd).inst = s.inst ∧ (kernelRemove s wd).watches = s.watches ∧
    (kernelRemove s wd).nextInst = s.nextInst ∧ (kernelRemove s wd).frame = s.frame ∧ (kernelRemove s wd).log = s.log ∧
    (kernelRemove s wd).nextWd = s.nextWd ∧ (kernelRemove s wd).foreign = s.foreign := by
  unfold kernelRemove
  split <;> exact ⟨rfl, rfl, rfl, rfl, rfl, rfl, rfl⟩

theorem kernelRemove_inst (s : State) (wd : Nat) (ws : List Watch) : kernelRemove { s with watches := ws } wd = { kernelRemove s wd with watches := ws } := by
  unfold kernelRemove
  split <;> rfl

theorem stopSt_fields (s : State) (w : Nat) (x : Watch) (r : Nat) :
    (stopSt s w x r).watches = s.watches.set w { x with wd := none, refs := r } ∧ (stopSt s w x r).frame = s.frame ∧
    (stopSt s w x r).nextInst = s.nextInst ∧ (stopSt s w x r).nextWd = s.nextWd ∧
    (stopSt s w x r).foreign = s.foreign := by
  obtain ⟨h1, h2, h3, h4, h5, h6, h7⟩ := kernelRemove_fields s (x.wd.getD 0)
  unfold stopSt
  split
  · next h => refine ⟨?_, rfl, rfl, rfl, rfl⟩; cases x; cases h; rfl
  · next wd h =>
    rw [h] at h1 h2 h3 h4 h5 h6 h7
    exact ⟨rfl, h4, h3, h6, h7⟩

theorem stopSt_inst {s : State} {w : Nat} {x : Watch} {r : Nat} {i : Inst} (h : s.inst = some i) :
    ∃ t, (stopSt s w x r).inst = some { i with table := t } ∧ ∀ p, p ∈ t ↔ p ∈ i.table ∧ ∀ d, x.wd = some d → p.1 ≠ d := by
  unfold stopSt
  split
  · next hd => exact ⟨i.table, h, fun p => by rw [hd]; simp⟩
  · next d hd =>
    refine ⟨tableRemove i.table d, by dsimp only; rw [h]; rfl, fun p => ?_⟩
    rw [hd]
    simp [tableRemove]

theorem stop_eq {s : State} {w : Nat} {x : Watch} {i : Inst} (hi : s.inst = some i) (hx : x.inst = i.id) (r : Nat) (h : s.watches[w]? = some x) :
    stop { s with watches := s.watches.set w { x with refs := r } } w { x with refs := r } = .ok (stopSt s w x r) := by
  unfold stop stopSt
  cases hd : x.wd with
  | none => dsimp only
  | some d =>
    dsimp only
    have hacc : ∀ ws, State.access { s with watches := ws } x.inst = .ok i := fun ws => by
      rw [hx]
      exact access_eq (s := { s with watches := ws }) hi
    rw [hacc, ok_bind, kernelRemove_inst, hi]
    simp

/-- Stopping and giving up references -/
theorem stopSt_inv {c c' : Nat} {e : Nat → Nat} {s : State} {w : Nat} {x : Watch} {r n : Nat} (h : Inv c e s) (hw : s.watches[w]? = some x) (hx : 0 < x.refs)
    (hr : r = x.owned + n) (hc : (if 0 < r then 0 else 1) + c = c') : Inv c' (upd e w n) (stopSt s w x r) := by
  obtain ⟨i, hi, hxi⟩ := h.ptr w x hw hx
  obtain ⟨t, ht, htm⟩ := stopSt_inst (w := w) (x := x) (r := r) hi
  obtain ⟨f1, f2, f3, f4, f6⟩ := stopSt_fields s w x r
  have hcount := countP_alive_set (y := { x with wd := none, refs := r }) hw
  have hax : alive x = true := by simp [alive, hx]
  have har : alive { x with wd := none, refs := r } = decide (0 < r) := rfl
  rw [hax, har] at hcount
  have hrefs := h.refs i hi
  have key : i.refs = (s.watches.set w { x with wd := none, refs := r }).countP alive + c' := by
    by_cases h0 : 0 < r <;> simp [h0] at hcount hc <;> omega
  constructor
  · intro j hj
    rw [ht] at hj
    cases hj
    rw [f1]
    exact key
  · intro j hj
    rw [ht] at hj
    cases hj
    exact h.pos i hi
  · intro hn
    rw [ht] at hn
    cases hn
  · intro v y hv hy
    rw [f1, getElem?_set hw] at hv
    rw [ht]
    by_cases hvw : v = w
    · rw [if_pos hvw] at hv
      cases hv
      exact ⟨_, rfl, hxi⟩
    · rw [if_neg hvw] at hv
      obtain ⟨j, hj, e⟩ := h.ptr v y hv hy
      rw [hi] at hj
      cases hj
      exact ⟨_, rfl, e⟩
  · intro v y hv hy
    rw [f1, getElem?_set hw] at hv
    by_cases hvw : v = w
    · rw [if_pos hvw] at hv
      cases hv
      rfl
    · rw [if_neg hvw] at hv
      exact h.dead v y hv hy
  · intro v y hv
    rw [f1, getElem?_set hw] at hv
    unfold upd
    by_cases hvw : v = w
    · rw [if_pos hvw] at hv ⊢
      cases hv
      exact hr
    · rw [if_neg hvw] at hv ⊢
      exact h.own v y hv
  · intro v hv
    rw [f1, List.length_set] at hv
    have := lt_of_some hw
    unfold upd
    rw [if_neg (by omega)]
    exact h.extra v hv
  · intro j hj d v hm
    rw [ht] at hj
    cases hj
    obtain ⟨hm, hne⟩ := (htm _).1 hm
    obtain ⟨y, hy, hd⟩ := h.table i hi d v hm
    rw [f1, getElem?_set hw]
    by_cases hvw : v = w
    · subst hvw
      rw [hw] at hy
      cases hy
      exact absurd rfl (hne d hd)
    · rw [if_neg hvw]
      exact ⟨y, hy, hd⟩
  · intro j hj
    rw [ht] at hj
    cases hj
    rw [f3]
    exact h.ids i hi

/-- What happens to the references of a watch only -/
theorem set_inv {c : Nat} {e : Nat → Nat} {s : State} {w : Nat} {x : Watch} {r o n : Nat} (h : Inv c e s) (hw : s.watches[w]? = some x) (hx : 0 < x.refs)
    (hr0 : 0 < r) (hr : r = o + n) : Inv c (upd e w n) { s with watches := s.watches.set w { x with refs := r, owned := o } } := by
  obtain ⟨i, hi, hxi⟩ := h.ptr w x hw hx
  have hcount := countP_alive_set (y := { x with refs := r, owned := o }) hw
  have hax : alive x = true := by simp [alive, hx]
  have har : alive { x with refs := r, owned := o } = true := by simp [alive, hr0]
  rw [hax, har] at hcount
  constructor
  · intro j hj
    have := h.refs j hj
    dsimp only
    omega
  · exact h.pos
  · exact h.noInst
  · intro v y hv hy
    dsimp only at hv ⊢
    rw [getElem?_set hw] at hv
    by_cases hvw : v = w
    · rw [if_pos hvw] at hv
      cases hv
      exact ⟨i, hi, hxi⟩
    · rw [if_neg hvw] at hv
      exact h.ptr v y hv hy
  · intro v y hv hy
    dsimp only at hv
    rw [getElem?_set hw] at hv
    by_cases hvw : v = w
    · rw [if_pos hvw] at hv
      cases hv
      dsimp only at hy
      omega
    · rw [if_neg hvw] at hv
      exact h.dead v y hv hy
  · intro v y hv
    dsimp only at hv
    rw [getElem?_set hw] at hv
    unfold upd
    by_cases hvw : v = w
    · rw [if_pos hvw] at hv ⊢
      cases hv
      exact hr
    · rw [if_neg hvw] at hv ⊢
      exact h.own v y hv
  · intro v hv
    dsimp only at hv
    rw [List.length_set] at hv
    have := lt_of_some hw
    unfold upd
    rw [if_neg (by omega)]
    exact h.extra v hv
  · intro j hj d v hm
    obtain ⟨y, hy, hd⟩ := h.table j hj d v hm
    dsimp only
    rw [getElem?_set hw]
    by_cases hvw : v = w
    · rw [if_pos hvw]
      subst hvw
      rw [hw] at hy
      cases hy
      exact ⟨_, rfl, hd⟩
    · rw [if_neg hvw]
      exact ⟨y, hy, hd⟩
  · exact h.ids

/-- Dropping a reference to the watch: the three things which may happen -/
theorem unrefWatch_inv {race : Option Nat} {c : Nat} {e : Nat → Nat} {s : State} {w : Nat} {x : Watch} (h : Inv c e s) (hw : s.watches[w]? = some x)
    (he : 0 < e w) : ∃ s', unrefWatch race s w = .ok s' ∧ Inv c (upd e w (e w - 1)) s' ∧
      (s' = { s with watches := s.watches.set w { x with refs := x.refs - 1 } } ∧ 0 < x.refs - 1 ∨
       x.refs = 1 ∧ (∃ i, (stopSt s w x 0).inst = some i ∧ s' = { stopSt s w x 0 with inst := some { i with refs := i.refs - 1 } }) ∨
       x.refs = 1 ∧ (∃ i, (stopSt s w x 0).inst = some i ∧ c = 0 ∧ (∀ (v : Nat) (y : Watch), (stopSt s w x 0).watches[v]? = some y → y.refs = 0) ∧
        s' = closeSt race (stopSt s w x 0) i)) := by
  have hx : 0 < x.refs := by
    have := h.own w x hw
    omega
  unfold unrefWatch
  rw [watch_eq hw hx, ok_bind]
  by_cases h1 : x.refs = 1
  · rw [if_pos h1]
    obtain ⟨i, hi, hxi⟩ := h.ptr w x hw hx
    rw [stop_eq hi hxi 0 hw, ok_bind]
    have h2 := h.own w x hw
    have h3 := stopSt_inv (c' := c + 1) (r := 0) (n := 0) h hw hx (by omega) (by simp; omega)
    obtain ⟨t, ht, htm⟩ := stopSt_inst (w := w) (x := x) (r := 0) hi
    obtain ⟨s', e1, e2, e3⟩ := unrefInst_inv (race := race) h3 ht
    rw [hxi]
    refine ⟨s', e1, ?_, ?_⟩
    · have : e w - 1 = 0 := by omega
      rw [this]
      exact e2
    · rcases e3 with ⟨_, hc, hall, e3⟩ | e3
      · exact .inr (.inr ⟨h1, _, ht, hc, hall, e3⟩)
      · exact .inr (.inl ⟨h1, _, ht, e3⟩)
  · rw [if_neg h1]
    have h2 := h.own w x hw
    refine ⟨_, rfl, ?_, .inl ⟨rfl, by omega⟩⟩
    exact set_inv (o := x.owned) (r := x.refs - 1) (n := e w - 1) h hw hx (by omega) (by omega)

end Verif.Inotify
