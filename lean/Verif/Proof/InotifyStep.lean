import Verif.Proof.InotifyHist

namespace Verif.Inotify
open Verif.C

/-- Descriptors -/
structure FdInv (r : Prop) (s : State) : Prop where
  nodup : s.foreign.Nodup
  notForeign : ∀ i, s.inst = some i → i.fd ∉ s.foreign
  count : closes s.log + (if s.inst.isSome then 2 else 0) = 2 * opens s.log
  isOpen : ∀ i, s.inst = some i → ∃ pre post, s.log = pre ++ .opened i.fd :: post ∧ ∀ n, .closed n ∉ post
  source : r → ∀ i, s.inst = some i → i.source = true

structure Full (q : Nat → Prop) (r : Prop) (c : Nat) (e : Nat → Nat) (b : List (Nat × Ev)) (s : State) : Prop where
  inv : Inv c e s
  fd : FdInv r s
  hist : Hist q b s

theorem fd_log {r : Prop} {s s' : State} {e : Event} (h : FdInv r s) (hf : s'.foreign = s.foreign) (hl : s'.log = s.log ++ [e])
    (hi : s'.inst.map (fun i => (i.fd, i.source)) = s.inst.map (fun i => (i.fd, i.source))) (ho : ∀ n, e ≠ .opened n) (hc : ∀ n, e ≠ .closed n) : FdInv r s' := by
  have some_iff : s'.inst.isSome = s.inst.isSome := by
    have := congrArg Option.isSome hi
    simpa using this
  have back : ∀ i, s'.inst = some i → ∃ j, s.inst = some j ∧ j.fd = i.fd ∧ j.source = i.source := by
    intro i h
    rw [h] at hi
    cases hs : s.inst with
    | none => rw [hs] at hi; cases hi
    | some j => rw [hs] at hi; exact ⟨j, rfl, (Prod.ext_iff.1 (Option.some.inj hi)).1.symm, (Prod.ext_iff.1 (Option.some.inj hi)).2.symm⟩
  constructor
  · rw [hf]; exact h.nodup
  · intro i hi
    obtain ⟨j, hj, e, _⟩ := back i hi
    rw [hf, ← e]
    exact h.notForeign j hj
  · rw [hl, some_iff]
    have h1 : opens (s.log ++ [e]) = opens s.log := by
      unfold opens
      rw [List.countP_append]
      cases e <;> first | rfl | exact absurd rfl (ho _)
    have h2 : closes (s.log ++ [e]) = closes s.log := by
      unfold closes
      rw [List.countP_append]
      cases e <;> first | rfl | exact absurd rfl (hc _)
    rw [h1, h2]
    exact h.count
  · intro i hi
    obtain ⟨j, hj, e1, _⟩ := back i hi
    obtain ⟨pre, post, e2, e3⟩ := h.isOpen j hj
    refine ⟨pre, post ++ [e], ?_, fun n hn => ?_⟩
    · rw [hl, e2, e1]
      simp
    · rcases List.mem_append.1 hn with hn | hn
      · exact e3 n hn
      · exact hc n (List.mem_singleton.1 hn).symm
  · intro hr i hi
    obtain ⟨j, hj, _, e2⟩ := back i hi
    rw [← e2]
    exact h.source hr j hj

theorem fd_same {r : Prop} {s s' : State} (h : FdInv r s) (hf : s'.foreign = s.foreign) (hl : s'.log = s.log)
    (hi : s'.inst.map (fun i => (i.fd, i.source)) = s.inst.map (fun i => (i.fd, i.source))) : FdInv r s' := by
  have some_iff : s'.inst.isSome = s.inst.isSome := by
    have := congrArg Option.isSome hi
    simpa using this
  have back : ∀ i, s'.inst = some i → ∃ j, s.inst = some j ∧ j.fd = i.fd ∧ j.source = i.source := by
    intro i h
    rw [h] at hi
    cases hs : s.inst with
    | none => rw [hs] at hi; cases hi
    | some j => rw [hs] at hi; exact ⟨j, rfl, (Prod.ext_iff.1 (Option.some.inj hi)).1.symm, (Prod.ext_iff.1 (Option.some.inj hi)).2.symm⟩
  constructor
  · rw [hf]; exact h.nodup
  · intro i hi
    obtain ⟨j, hj, e, _⟩ := back i hi
    rw [hf, ← e]
    exact h.notForeign j hj
  · rw [hl, some_iff]
    exact h.count
  · intro i hi
    obtain ⟨j, hj, e1, _⟩ := back i hi
    rw [hl, ← e1]
    exact h.isOpen j hj
  · intro hr i hi
    obtain ⟨j, hj, _, e2⟩ := back i hi
    rw [← e2]
    exact h.source hr j hj

theorem fd_close {r : Prop} {race : Option Nat} {s : State} {i : Inst} (h : FdInv r s) (hi : s.inst = some i) (hr : ∀ fd, race = some fd → fd ∉ s.foreign) :
    FdInv r (closeSt race s i) := by
  have hc := h.count
  rw [hi] at hc
  simp at hc
  constructor
  · dsimp only [closeSt]
    apply List.Nodup.erase
    cases race with
    | none => simpa using h.nodup
    | some n =>
      show (s.foreign ++ [n]).Nodup
      rw [List.nodup_append]
      refine ⟨h.nodup, by simp, ?_⟩
      intro a ha b hb
      rw [List.mem_singleton] at hb
      subst hb
      exact fun e => hr b rfl (e ▸ ha)
  · intro j hj; cases hj
  · dsimp only [closeSt]
    have h1 : opens (s.log ++ [.closed i.fd, .closed i.fd]) = opens s.log := by
      unfold opens
      rw [List.countP_append]
      rfl
    have h2 : closes (s.log ++ [.closed i.fd, .closed i.fd]) = closes s.log + 2 := by
      unfold closes
      rw [List.countP_append]
      rfl
    rw [h1, h2]
    simpa using hc
  · intro j hj; cases hj
  · intro _ j hj; cases hj

theorem close_foreign {race : Option Nat} {s : State} {i : Inst} (h : i.fd ∉ s.foreign) (hr : race = none) : (closeSt race s i).foreign = s.foreign := by
  subst hr
  show (s.foreign ++ []).erase i.fd = s.foreign
  rw [List.append_nil, List.erase_of_not_mem h]

theorem full_unrefInst {q : Nat → Prop} {r : Prop} {race : Option Nat} {c : Nat} {e : Nat → Nat} {b : List (Nat × Ev)} {s : State} {i : Inst} (h : Full q r (c + 1) e b s)
    (hi : s.inst = some i) (hr : ∀ fd, race = some fd → fd ∉ s.foreign) (hb : c = 0 → b = []) :
    ∃ s', unrefInst race s i.id = .ok s' ∧ Full q r c e b s' ∧ s'.frame = s.frame ∧ s'.watches = s.watches ∧ (race = none → s'.foreign = s.foreign) := by
  obtain ⟨s', e1, e2, e3⟩ := unrefInst_inv (race := race) h.inv hi
  refine ⟨s', e1, ?_⟩
  rcases e3 with ⟨_, hc, hall, rfl⟩ | rfl
  · refine ⟨⟨e2, fd_close h.fd hi hr, ?_⟩, rfl, rfl, close_foreign (h.fd.notForeign i hi)⟩
    have hbn := hb hc
    subst hbn
    exact hist_close h.hist (fun w x hw => h.inv.dead w x hw (hall w x hw))
  · exact ⟨⟨e2, fd_same h.fd rfl rfl (by rw [hi]; rfl), hist_inst h.hist hi rfl⟩, rfl, rfl, fun _ => rfl⟩

theorem fd_stop {p : Prop} {s : State} {w : Nat} {x : Watch} (h : FdInv p s) (r : Nat) : FdInv p (stopSt s w x r) := by
  obtain ⟨f1, f2, f3, f4, f6⟩ := stopSt_fields s w x r
  cases hd : x.wd with
  | none =>
    refine fd_same h f6 ?_ ?_ <;> unfold stopSt <;> rw [hd]
  | some d =>
    refine fd_log (e := .stopped w) h f6 ?_ ?_ (by simp) (by simp) <;> unfold stopSt <;> rw [hd]
    dsimp only
    cases s.inst <;> rfl

theorem full_unrefWatch {q : Nat → Prop} {r : Prop} {race : Option Nat} {c : Nat} {e : Nat → Nat} {b : List (Nat × Ev)} {s : State} {w : Nat} (h : Full q r c e b s)
    (he : 0 < e w) (hr : ∀ fd, race = some fd → fd ∉ s.foreign) (hb : c = 0 → b = []) :
    ∃ s', unrefWatch race s w = .ok s' ∧ Full q r c (upd e w (e w - 1)) b s' ∧ s'.frame = s.frame ∧
      (0 < c → s'.foreign = s.foreign ∧ ∀ i, s.inst = some i → ∃ i', s'.inst = some i' ∧ i'.id = i.id) ∧ (race = none → s'.foreign = s.foreign) := by
  have hlt : w < s.watches.length := by
    apply Classical.byContradiction
    intro hge
    have := h.inv.extra w (by omega)
    omega
  have hw : s.watches[w]? = some s.watches[w] := List.getElem?_eq_getElem hlt
  generalize s.watches[w] = x at hw
  obtain ⟨s', e1, e2, e3⟩ := unrefWatch_inv (race := race) h.inv hw he
  have hx : 0 < x.refs := by
    have := h.inv.own w x hw
    omega
  obtain ⟨j, hj, hxj⟩ := h.inv.ptr w x hw hx
  obtain ⟨f1, f2, f3, f4, f6⟩ := stopSt_fields s w x 0
  refine ⟨s', e1, ⟨e2, ?_, ?_⟩, ?_, ?_, ?_⟩
  · rcases e3 with ⟨rfl, _⟩ | ⟨_, i, hi, rfl⟩ | ⟨_, i, hi, hc, hall, rfl⟩
    · exact fd_same h.fd rfl rfl rfl
    · exact fd_same (fd_stop (w := w) (x := x) h.fd 0) rfl rfl (by rw [hi]; rfl)
    · refine fd_close (fd_stop (w := w) (x := x) h.fd 0) hi ?_
      rw [f6]
      exact hr
  · rcases e3 with ⟨rfl, _⟩ | ⟨_, i, hi, rfl⟩ | ⟨_, i, hi, hc, hall, rfl⟩
    · exact hist_set h.hist hw (x.refs - 1) x.owned
    · exact hist_inst (hist_stop h.hist hj hw 0) hi rfl
    · have hbn := hb hc
      subst hbn
      refine hist_close (hist_stop h.hist hj hw 0) ?_
      intro v y hv
      rw [f1, getElem?_set hw] at hv
      by_cases hvw : v = w
      · rw [if_pos hvw] at hv
        cases hv
        rfl
      · rw [if_neg hvw] at hv
        refine h.inv.dead v y hv (hall v y ?_)
        rw [f1, getElem?_set hw, if_neg hvw]
        exact hv
  · rcases e3 with ⟨rfl, _⟩ | ⟨_, i, hi, rfl⟩ | ⟨_, i, hi, hc, hall, rfl⟩
    · rfl
    · exact f2
    · exact f2
  · intro hc
    rcases e3 with ⟨rfl, _⟩ | ⟨_, i, hi, rfl⟩ | ⟨_, i, hi, hc, hall, rfl⟩
    · exact ⟨rfl, fun i hi => ⟨i, hi, rfl⟩⟩
    · refine ⟨f6, fun k hk => ⟨_, rfl, ?_⟩⟩
      obtain ⟨t, ht, _⟩ := stopSt_inst (w := w) (x := x) (r := 0) hk
      rw [ht] at hi
      cases hi
      rfl
    · omega
  · intro hrn
    rcases e3 with ⟨rfl, _⟩ | ⟨_, i, hi, rfl⟩ | ⟨_, i, hi, hc, hall, rfl⟩
    · rfl
    · exact f6
    · refine (close_foreign ?_ hrn).trans f6
      exact (fd_stop (w := w) (x := x) h.fd 0).notForeign i hi

theorem full_frame {q : Nat → Prop} {r : Prop} {c : Nat} {e : Nat → Nat} {b : List (Nat × Ev)} {s : State} (h : Full q r c e b s) (f : Option (Nat × List (Nat × Ev))) :
    Full q r c e b { s with frame := f } := by
  obtain ⟨h1, h2, h3⟩ := h
  exact ⟨⟨h1.refs, h1.pos, h1.noInst, h1.ptr, h1.dead, h1.own, h1.extra, h1.table, h1.ids⟩, ⟨h2.nodup, h2.notForeign, h2.count, h2.isOpen, h2.source⟩,
    ⟨h3.wd1, h3.wdK, h3.nodup, h3.wdQ, h3.wdLt, h3.same, h3.wdT, h3.keys, h3.kern, h3.act, h3.live, h3.deliv, h3.stop, h3.fresh, h3.made, h3.born, h3.src, h3.sound⟩⟩

/-- The numbers of additional references and the events, between the actions -/
def cOf (f : Option (Nat × List (Nat × Ev))) : Nat := if f.isSome then 1 else 0
def eOf (f : Option (Nat × List (Nat × Ev))) : Nat → Nat := fun w => if f.map (·.1) = some w then 1 else 0
def bOf (f : Option (Nat × List (Nat × Ev))) : List (Nat × Ev) := (f.map (·.2)).getD []

def Rest (q : Nat → Prop) (r : Prop) (s : State) : Prop := Full q r (cOf s.frame) (eOf s.frame) (bOf s.frame) s

theorem eOf_none : eOf none = fun _ => 0 := by
  funext w
  simp [eOf]

theorem full_proc {q : Nat → Prop} {r : Prop} {race : Option Nat} : ∀ {b : List (Nat × Ev)} {s : State} {i : Inst}, Full q r 1 (fun _ => 0) b s → s.frame = none → s.inst = some i →
    (∀ fd, race = some fd → fd ∉ s.foreign) → ∃ s', proc race s i.id b = .ok s' ∧ Rest q r s' ∧ (race = none → s'.foreign = s.foreign) := by
  intro b
  induction b with
  | nil =>
    intro s i h hf hi hr
    obtain ⟨s', e1, e2, e3, _, e4⟩ := full_unrefInst (c := 0) h hi hr (fun _ => rfl)
    refine ⟨s', e1, ?_, e4⟩
    unfold Rest
    rw [e3, hf, eOf_none]
    exact e2
  | cons p t ih =>
    intro s i h hf hi hr
    obtain ⟨d, ev⟩ := p
    unfold proc
    rw [access_eq hi, ok_bind]
    cases hl : tableLookup i.table d with
    | none =>
      dsimp only
      exact ih ⟨h.inv, h.fd, hist_skip h.hist hi hl⟩ hf hi hr
    | some w =>
      dsimp only
      obtain ⟨x, hw, hd⟩ := h.inv.table i hi d w (lookup_mem hl)
      have hx : 0 < x.refs := by
        apply Classical.byContradiction
        intro h0
        have := h.inv.dead w x hw (by omega)
        rw [this] at hd
        cases hd
      unfold ref
      rw [watch_eq hw hx, ok_bind, ok_bind]
      refine ⟨_, rfl, ?_, fun _ => rfl⟩
      have hown := h.inv.own w x hw
      have h1 := set_inv (r := x.refs + 1) (o := x.owned) (n := 1) h.inv hw hx (by omega) (by omega)
      have h2 : Full q r 1 (upd (fun _ => 0) w 1) t { s with watches := s.watches.set w { x with refs := x.refs + 1, owned := x.owned }, log := s.log ++ [.delivered w ev] } := by
        refine ⟨⟨h1.refs, h1.pos, h1.noInst, h1.ptr, h1.dead, h1.own, h1.extra, h1.table, h1.ids⟩, ?_, ?_⟩
        · exact fd_log (e := .delivered w ev) h.fd rfl rfl rfl (by simp) (by simp)
        · have h3 := hist_set h.hist hw (x.refs + 1) x.owned
          exact hist_deliver (x := { x with refs := x.refs + 1, owned := x.owned }) h3 (by dsimp only; rw [getElem?_set hw, if_pos rfl]) hd
      have h3 := full_frame h2 (some (w, t))
      have he : eOf (some (w, t)) = upd (fun _ => 0) w 1 := by
        funext v
        simp only [eOf, upd, Option.map_some, Option.some.injEq]
        by_cases hvw : v = w
        · simp [hvw]
        · rw [if_neg hvw, if_neg (fun e => hvw e.symm)]
      show Full q r _ (eOf (some (w, t))) t _
      rw [he]
      exact h3

/-! ## The steps -/

theorem full_newInst {q : Nat → Prop} {r : Prop} {c : Nat} {e : Nat → Nat} {b : List (Nat × Ev)} {s : State} (h : Full q r c e b s) (hb : c = 0 → b = []) {fd : Nat}
    (hfd : fd ∉ s.foreign) : ∃ i, (newInst s fd).1.inst = some i ∧ (newInst s fd).2 = i ∧ Full q r (c + 1) e b (newInst s fd).1 ∧
      (newInst s fd).1.frame = s.frame ∧ (newInst s fd).1.watches = s.watches ∧ (newInst s fd).1.kernel = s.kernel ∧
      (newInst s fd).1.foreign = s.foreign := by
  cases hi : s.inst with
  | some i =>
    have e1 : newInst s fd = ({ s with inst := some { i with refs := i.refs + 1 } }, { i with refs := i.refs + 1 }) := by
      unfold newInst
      rw [hi]
    rw [e1]
    refine ⟨{ i with refs := i.refs + 1 }, rfl, rfl, ⟨?_, ?_, ?_⟩, rfl, rfl, rfl, rfl⟩
    · have h := h.inv
      have hr := h.refs i hi
      constructor
      · rintro j ⟨⟩; dsimp only; omega
      · rintro j ⟨⟩; dsimp only; omega
      · intro hn; cases hn
      · intro w x hw hx
        obtain ⟨j, hj, e⟩ := h.ptr w x hw hx
        rw [hi] at hj
        cases hj
        exact ⟨_, rfl, e⟩
      · exact h.dead
      · exact h.own
      · exact h.extra
      · rintro j ⟨⟩; exact h.table i hi
      · rintro j ⟨⟩; exact h.ids i hi
    · exact fd_same h.fd rfl rfl (by rw [hi]; rfl)
    · exact hist_inst h.hist hi rfl
  | none =>
    have e1 : newInst s fd = ({ s with inst := some ⟨s.nextInst, fd, 1, true, []⟩, nextInst := s.nextInst + 1, log := s.log ++ [.opened fd] },
        ⟨s.nextInst, fd, 1, true, []⟩) := by
      unfold newInst
      rw [hi]
    rw [e1]
    obtain ⟨hc, hk, hqu, hn⟩ := h.inv.noInst hi
    have hdead : ∀ (w : Nat) (x : Watch), s.watches[w]? = some x → x.refs = 0 := by
      intro w x hw
      apply Classical.byContradiction
      intro h0
      obtain ⟨j, hj, _⟩ := h.inv.ptr w x hw (by omega)
      rw [hi] at hj
      cases hj
    have hcount : s.watches.countP alive = 0 := by
      rw [List.countP_eq_zero]
      intro x hx
      obtain ⟨w, hw⟩ := List.mem_iff_getElem?.1 hx
      simp [alive, hdead w x hw]
    refine ⟨⟨s.nextInst, fd, 1, true, []⟩, rfl, rfl, ⟨?_, ?_, ?_⟩, rfl, rfl, rfl, rfl⟩
    · have h := h.inv
      constructor
      · rintro j ⟨⟩; dsimp only; omega
      · rintro j ⟨⟩; dsimp only; omega
      · intro hn; cases hn
      · intro w x hw hx
        have := hdead w x hw
        omega
      · exact h.dead
      · exact h.own
      · exact h.extra
      · rintro j ⟨⟩ d w hm; cases hm
      · rintro j ⟨⟩; dsimp only; omega
    · have h := h.fd
      have hcnt := h.count
      rw [hi] at hcnt
      simp at hcnt
      constructor
      · exact h.nodup
      · rintro j ⟨⟩; exact hfd
      · dsimp only
        have h1 : opens (s.log ++ [.opened fd]) = opens s.log + 1 := by
          unfold opens
          rw [List.countP_append]
          rfl
        have h2 : closes (s.log ++ [.opened fd]) = closes s.log := by
          unfold closes
          rw [List.countP_append]
          rfl
        rw [h1, h2, hcnt]
        simp
        omega
      · rintro j ⟨⟩
        exact ⟨s.log, [], rfl, by simp⟩
      · rintro _ j ⟨⟩; rfl
    · have h1 := hist_neutral h.hist (neutral_opened fd)
      have hwd : ∀ (w : Nat) (x : Watch) (d : Nat), s.watches[w]? = some x → x.wd ≠ some d := by
        intro w x d hw hx
        rw [h.inv.dead w x hw (hdead w x hw)] at hx
        cases hx
      constructor
      · exact h1.wd1
      · exact h1.wdK
      · exact h1.nodup
      · exact h1.wdQ
      · exact h1.wdLt
      · exact h1.same
      · intro w x d hw hx; exact absurd hx (hwd w x d hw)
      · rintro j ⟨⟩; exact List.nodup_nil
      · exact h1.kern
      · exact h1.act
      · intro w x d hw hx; exact absurd hx (hwd w x d hw)
      · intro w x d hw hx; exact absurd hx (hwd w x d hw)
      · exact h1.stop
      · exact h1.fresh
      · exact h1.made
      · exact h1.born
      · exact h1.src
      · exact h1.sound

theorem getElem?_push {l : List Watch} {a y : Watch} {v : Nat} (hv : (l ++ [a])[v]? = some y) : v = l.length ∧ y = a ∨ v < l.length ∧ l[v]? = some y := by
  rw [List.getElem?_append] at hv
  split at hv
  · next hlt => exact .inr ⟨hlt, hv⟩
  · next hge =>
    have h0 : v - l.length = 0 := by
      have := (List.getElem?_eq_some_iff.1 hv).1
      simp at this
      omega
    rw [h0] at hv
    cases hv
    exact .inl ⟨by omega, rfl⟩

theorem full_new {q : Nat → Prop} {r : Prop} {c : Nat} {e : Nat → Nat} {b : List (Nat × Ev)} {s : State} (h : Full q r c e b s) (hb : c = 0 → b = []) {fd file : Nat} (mask : BitVec 32)
    (hfd : fd ∉ s.foreign) (hP : q file → ∀ k ∈ s.kernel, k.file ≠ file) : Full q r c e b (newWatch s file mask fd) ∧ (newWatch s file mask fd).frame = s.frame := by
  obtain ⟨i, hi, hi2, h1, hf, hws, hk, hfo⟩ := full_newInst h hb hfd
  have e1 : newWatch s file mask fd =
      { (kernelAdd (newInst s fd).1 file mask).1 with
        inst := some { i with table := tableInsert i.table (kernelAdd (newInst s fd).1 file mask).2 s.watches.length },
        watches := s.watches ++ [⟨i.id, file, mask, some (kernelAdd (newInst s fd).1 file mask).2, 1, 1⟩],
        log := (newInst s fd).1.log ++ [.created s.watches.length file mask] } := by
    unfold newWatch
    dsimp only
    have : (kernelAdd (newInst s fd).1 file mask).1.watches = s.watches := by
      rw [← hws]
      unfold kernelAdd
      split <;> rfl
    have h3 : (kernelAdd (newInst s fd).1 file mask).1.log = (newInst s fd).1.log := by
      unfold kernelAdd
      split <;> rfl
    rw [this, hi2, h3]
  rw [e1]
  have hka : (kernelAdd (newInst s fd).1 file mask).1.foreign = (newInst s fd).1.foreign ∧
      (kernelAdd (newInst s fd).1 file mask).1.frame = (newInst s fd).1.frame ∧
      (kernelAdd (newInst s fd).1 file mask).1.nextInst = (newInst s fd).1.nextInst := by
    unfold kernelAdd
    split <;> exact ⟨rfl, rfl, rfl⟩
  refine ⟨⟨?_, ?_, ?_⟩, hka.2.1.trans hf⟩
  · have hv := h1.inv
    constructor
    · rintro j ⟨⟩
      have := hv.refs i hi
      rw [hws] at this
      dsimp only
      rw [List.countP_append]
      have ha : [(⟨i.id, file, mask, some (kernelAdd (newInst s fd).1 file mask).2, 1, 1⟩ : Watch)].countP alive = 1 := rfl
      omega
    · rintro j ⟨⟩
      exact hv.pos i hi
    · intro hn; cases hn
    · intro v y hvv hy
      dsimp only at hvv ⊢
      rcases getElem?_push hvv with ⟨_, rfl⟩ | ⟨_, hvv⟩
      · exact ⟨_, rfl, rfl⟩
      · rw [← hws] at hvv
        obtain ⟨j, hj, e⟩ := hv.ptr v y hvv hy
        rw [hi] at hj
        cases hj
        exact ⟨_, rfl, e⟩
    · intro v y hvv hy
      dsimp only at hvv
      rcases getElem?_push hvv with ⟨_, rfl⟩ | ⟨_, hvv⟩
      · cases hy
      · exact h.inv.dead v y hvv hy
    · intro v y hvv
      dsimp only at hvv
      rcases getElem?_push hvv with ⟨hl, rfl⟩ | ⟨_, hvv⟩
      · rw [h.inv.extra v (by omega)]
      · exact h.inv.own v y hvv
    · intro v hl
      dsimp only at hl
      rw [List.length_append] at hl
      exact h.inv.extra v (by omega)
    · rintro j ⟨⟩ d v hm
      dsimp only at hm ⊢
      rcases List.mem_cons.1 hm with hm | hm
      · cases hm
        exact ⟨⟨i.id, file, mask, some (kernelAdd (newInst s fd).1 file mask).2, 1, 1⟩, by simp, rfl⟩
      · obtain ⟨y, hy, hd⟩ := hv.table i hi d v (List.mem_filter.1 hm).1
        rw [hws] at hy
        refine ⟨y, ?_, hd⟩
        rw [List.getElem?_append, if_pos (lt_of_some hy)]
        exact hy
    · rintro j ⟨⟩
      dsimp only
      rw [hka.2.2]
      exact hv.ids i hi
  · exact fd_log (s := (newInst s fd).1) (e := .created s.watches.length file mask) h1.fd (by exact hka.1) rfl (by rw [hi]; rfl) (by simp) (by simp)
  · cases hfind : (newInst s fd).1.kernel.find? (fun k => decide (k.file = file)) with
    | none =>
      have e2 : kernelAdd (newInst s fd).1 file mask =
          ({ (newInst s fd).1 with kernel := (newInst s fd).1.kernel ++ [⟨(newInst s fd).1.nextWd, file, mask⟩], nextWd := (newInst s fd).1.nextWd + 1 }, (newInst s fd).1.nextWd) := by
        unfold kernelAdd
        rw [hfind]
      rw [e2]
      have h3 := hist_new h1.hist hi file mask (by
        rw [List.find?_eq_none] at hfind
        intro k hk'
        have := hfind k hk'
        simpa using this)
      rw [hws] at h3
      exact h3
    | some k =>
      have hkm := List.mem_of_find?_eq_some hfind
      have hkf : k.file = file := by simpa using List.find?_some hfind
      subst hkf
      have e2 : kernelAdd (newInst s fd).1 k.file mask =
          ({ (newInst s fd).1 with kernel := (newInst s fd).1.kernel.map (fun x => if x.wd = k.wd then { x with mask := newMask x.mask mask } else x) }, k.wd) := by
        unfold kernelAdd
        rw [hfind]
      rw [e2]
      have h3 := hist_join h1.hist hi mask hkm (fun hq => hP hq k (hk ▸ hkm) rfl)
      rw [hws] at h3
      exact h3

theorem full_kernel {q : Nat → Prop} {r : Prop} {c : Nat} {e : Nat → Nat} {b b' : List (Nat × Ev)} {s s' : State} (h : Full q r c e b s) (h1 : s'.inst = s.inst) (h2 : s'.nextInst = s.nextInst)
    (h3 : s'.watches = s.watches) (h4 : s.inst = none → s'.kernel = [] ∧ s'.queue = [] ∧ s'.nextWd = 1) (h5 : FdInv r s') (h6 : Hist q b' s') :
    Full q r c e b' s' := by
  refine ⟨?_, h5, h6⟩
  have h := h.inv
  constructor
  · rw [h1, h3]; exact h.refs
  · rw [h1]; exact h.pos
  · intro hn; rw [h1] at hn; exact ⟨(h.noInst hn).1, h4 hn⟩
  · rw [h1, h3]; exact h.ptr
  · rw [h3]; exact h.dead
  · rw [h3]; exact h.own
  · rw [h3]; exact h.extra
  · rw [h1, h3]; exact h.table
  · rw [h1, h2]; exact h.ids

theorem owned_some {s : State} {w : Nat} (h : 0 < s.owned w) : ∃ x, s.watches[w]? = some x ∧ 0 < x.owned := by
  unfold State.owned at h
  cases hw : s.watches[w]? with
  | none => rw [hw] at h; simp at h
  | some x => rw [hw] at h; exact ⟨x, rfl, by simpa using h⟩

theorem modify_eq {l : List Watch} {w : Nat} {x : Watch} (f : Watch → Watch) (h : l[w]? = some x) : l.modify w f = l.set w (f x) := by
  apply List.ext_getElem?
  intro v
  rw [getElem?_set h, List.getElem?_modify]
  by_cases hvw : v = w
  · subst hvw
    rw [h, if_pos rfl]
    simp
  · rw [if_neg hvw]
    have : ¬ w = v := fun e => hvw e.symm
    cases l[v]? <;> simp [this]

theorem disown_eq {s : State} {w : Nat} {x : Watch} (h : s.watches[w]? = some x) :
    disown s w = { s with watches := s.watches.set w { x with refs := x.refs, owned := x.owned - 1 } } := by
  unfold disown
  rw [modify_eq _ h]

theorem full_disown {q : Nat → Prop} {r : Prop} {c : Nat} {e : Nat → Nat} {b : List (Nat × Ev)} {s : State} {w : Nat} {x : Watch} (h : Full q r c e b s) (hw : s.watches[w]? = some x)
    (ho : 0 < x.owned) : Full q r c (upd e w (e w + 1)) b (disown s w) := by
  have hown := h.inv.own w x hw
  rw [disown_eq hw]
  exact ⟨set_inv (r := x.refs) (o := x.owned - 1) (n := e w + 1) h.inv hw (by omega) (by omega) (by omega), fd_same h.fd rfl rfl rfl,
    hist_set h.hist hw x.refs (x.owned - 1)⟩

theorem upd_upd (e : Nat → Nat) (w a b : Nat) : upd (upd e w a) w b = upd e w b := by
  funext v
  unfold upd
  split <;> rfl

theorem upd_self (e : Nat → Nat) (w : Nat) : upd e w (e w) = e := by
  funext v
  unfold upd
  split
  · next h => rw [h]
  · rfl

theorem full_drop {q : Nat → Prop} {r : Prop} {race : Option Nat} {c : Nat} {e : Nat → Nat} {b : List (Nat × Ev)} {s : State} {w : Nat} {x : Watch} (h : Full q r c e b s)
    (hw : s.watches[w]? = some x) (ho : 0 < x.owned) (hr : ∀ fd, race = some fd → fd ∉ s.foreign) (hb : c = 0 → b = []) :
    ∃ s', unrefWatch race (disown s w) w = .ok s' ∧ Full q r c e b s' ∧ s'.frame = s.frame ∧ (race = none → s'.foreign = s.foreign) := by
  have h1 := full_disown h hw ho
  obtain ⟨s', e1, e2, e3, _, e4⟩ := full_unrefWatch (race := race) (w := w) h1 (by simp [upd]) hr hb
  refine ⟨s', e1, ?_, e3, e4⟩
  rw [upd_upd] at e2
  have : upd e w (e w + 1) w - 1 = e w := by simp [upd]
  rw [this, upd_self] at e2
  exact e2

theorem rest_frame {q : Nat → Prop} {r : Prop} {s' : State} {f : Option (Nat × List (Nat × Ev))} (h : Full q r (cOf f) (eOf f) (bOf f) s') (hf : s'.frame = f) : Rest q r s' := by
  unfold Rest
  rw [hf]
  exact h

theorem bOf_nil {f : Option (Nat × List (Nat × Ev))} (h : cOf f = 0) : bOf f = [] := by
  cases f with
  | none => rfl
  | some p => cases h

/-- Events have been read. -/
theorem full_dispatch {q : Nat → Prop} {r : Prop} {s : State} {i : Inst} (h0 : Full q r 0 (fun _ => 0) [] s) (hi : s.inst = some i) (n : Nat) :
    Full q r 1 (fun _ => 0) (s.queue.take n) { s with inst := some { i with refs := i.refs + 1 }, queue := s.queue.drop n } := by
  have hv := h0.inv
  refine ⟨?_, fd_same h0.fd rfl rfl (by rw [hi]; rfl), ?_⟩
  · constructor
    · rintro j ⟨⟩; have := hv.refs i hi; dsimp only; omega
    · rintro j ⟨⟩; dsimp only; omega
    · intro hn; cases hn
    · intro w x hw hx
      obtain ⟨j, hj, e⟩ := hv.ptr w x hw hx
      rw [hi] at hj
      cases hj
      exact ⟨_, rfl, e⟩
    · exact hv.dead
    · exact hv.own
    · exact hv.extra
    · rintro j ⟨⟩; exact hv.table i hi
    · rintro j ⟨⟩; exact hv.ids i hi
  · have h2 := hist_inst (j := { i with refs := i.refs + 1 }) h0.hist hi rfl
    have e : ([] : List (Nat × Ev)) ++ s.queue = s.queue.take n ++ s.queue.drop n := by simp
    refine ⟨h2.wd1, h2.wdK, h2.nodup, ?_, h2.wdLt, h2.same, h2.wdT, h2.keys, h2.kern, h2.act, h2.live, ?_, h2.stop, h2.fresh, h2.made, h2.born, ?_, h2.sound⟩
    · have := h2.wdQ
      dsimp only at this ⊢
      rw [e] at this
      exact this
    · have := h2.deliv
      dsimp only at this ⊢
      rw [e] at this
      exact this
    · have := h2.src
      dsimp only at this ⊢
      rw [e] at this
      exact this

theorem rest_step {q : Nat → Prop} {r : Prop} {s : State} {a : Act} {race : Option Nat} (h : Rest q r s) (ha : Allowed s a) (hr : ∀ fd, race = some fd → fd ∉ s.foreign)
    (hP : ∀ file mask fd, a = .new file mask fd → q file → ∀ k ∈ s.kernel, k.file ≠ file) (hR : r → a ≠ .readFails) : ∃ s', step race s a = .ok s' ∧ Rest q r s' ∧
      (race = none → (∀ fd, a ≠ .fopen fd) → (∀ fd, a ≠ .fclose fd) → s'.foreign = s.foreign) := by
  cases a with
  | new file mask fd =>
    obtain ⟨h1, h2⟩ := full_new h bOf_nil mask ha (hP file mask fd rfl)
    refine ⟨_, rfl, rest_frame h1 h2, fun _ _ _ => ?_⟩
    have h3 : ∀ t : State, (kernelAdd t file mask).1.foreign = t.foreign := fun t => by unfold kernelAdd; split <;> rfl
    have h4 : (newInst s fd).1.foreign = s.foreign := by unfold newInst; split <;> rfl
    exact (h3 _).trans h4
  | newFails fd =>
    obtain ⟨i, hi, hi2, h1, hf, hws, hk, hfo⟩ := full_newInst h bOf_nil ha
    obtain ⟨s', e1, e2, e3, _, e4⟩ := full_unrefInst (race := race) h1 hi (by rw [hfo]; exact hr) bOf_nil
    refine ⟨s', ?_, rest_frame e2 (e3.trans hf), fun hrn _ _ => (e4 hrn).trans hfo⟩
    show unrefInst race (newInst s fd).1 (newInst s fd).2.id = _
    rw [hi2]
    exact e1
  | ref w =>
    obtain ⟨x, hw, ho⟩ := owned_some ha
    have hown := h.inv.own w x hw
    have hx : 0 < x.refs := by omega
    unfold step
    dsimp only
    unfold ref
    rw [watch_eq hw hx, ok_bind, ok_bind]
    refine ⟨_, rfl, ?_, fun _ _ _ => rfl⟩
    have e1 : (s.watches.set w { x with refs := x.refs + 1 }).modify w (fun x => { x with owned := x.owned + 1 }) =
        s.watches.set w { x with refs := x.refs + 1, owned := x.owned + 1 } := by
      rw [modify_eq (x := { x with refs := x.refs + 1 }) _ (by rw [getElem?_set hw, if_pos rfl]), List.set_set]
    dsimp only
    rw [e1]
    have h1 := set_inv (r := x.refs + 1) (o := x.owned + 1) (n := eOf s.frame w) h.inv hw hx (by omega) (by omega)
    rw [upd_self] at h1
    have : Full q r (cOf s.frame) (eOf s.frame) (bOf s.frame) { s with watches := s.watches.set w { x with refs := x.refs + 1, owned := x.owned + 1 } } :=
      ⟨h1, fd_same h.fd rfl rfl rfl, hist_set h.hist hw (x.refs + 1) (x.owned + 1)⟩
    exact this
  | unref w =>
    obtain ⟨x, hw, ho⟩ := owned_some ha
    obtain ⟨s', e1, e2, e3, e4⟩ := full_drop (race := race) h hw ho hr bOf_nil
    exact ⟨s', e1, rest_frame e2 e3, fun hrn _ _ => e4 hrn⟩
  | destroy w =>
    obtain ⟨x, hw, ho⟩ := owned_some ha
    have hown := h.inv.own w x hw
    have hx : 0 < x.refs := by omega
    obtain ⟨i, hi, hxi⟩ := h.inv.ptr w x hw hx
    unfold step
    dsimp only
    unfold destroy
    rw [watch_eq hw hx, ok_bind]
    have e1 := stop_eq hi hxi x.refs hw
    have e2 : s.watches.set w { x with refs := x.refs } = s.watches := set_self hw
    rw [e2] at e1
    have e1 : stop s w x = .ok (stopSt s w x x.refs) := e1
    rw [e1, ok_bind]
    obtain ⟨f1, f2, f3, f4, f6⟩ := stopSt_fields s w x x.refs
    have h1 : Full q r (cOf s.frame) (eOf s.frame) (bOf s.frame) (stopSt s w x x.refs) := by
      refine ⟨?_, fd_stop h.fd x.refs, hist_stop h.hist hi hw x.refs⟩
      have := stopSt_inv (c' := cOf s.frame) (r := x.refs) (n := eOf s.frame w) h.inv hw hx hown (by rw [if_pos hx]; omega)
      rw [upd_self] at this
      exact this
    have hw' : (stopSt s w x x.refs).watches[w]? = some { x with wd := none, refs := x.refs } := by
      rw [f1, getElem?_set hw, if_pos rfl]
    obtain ⟨s', e3, e4, e5, e6⟩ := full_drop (race := race) h1 hw' ho (by rw [f6]; exact hr) bOf_nil
    exact ⟨s', e3, rest_frame e4 (e5.trans f2), fun hrn _ _ => (e6 hrn).trans f6⟩
  | dispatch n =>
    obtain ⟨hn1, hn2, hf, i, hi, hs⟩ := ha
    unfold step dispatch
    rw [hi]
    dsimp only
    unfold Rest at h
    rw [hf, eOf_none] at h
    have h0 : Full q r 0 (fun _ => 0) [] s := h
    have h1 := full_dispatch h0 hi n
    obtain ⟨s', e1, e2, e3⟩ := full_proc (i := { i with refs := i.refs + 1 }) h1 hf rfl hr
    exact ⟨s', e1, e2, fun hrn _ _ => e3 hrn⟩
  | readFails =>
    obtain ⟨hf, i, hi, hs⟩ := ha
    unfold step readFails
    rw [hi]
    refine ⟨_, rfl, ?_, fun _ _ _ => rfl⟩
    have hv := h.inv
    have : Full q r (cOf s.frame) (eOf s.frame) (bOf s.frame) { s with inst := some { i with source := false } } := by
      refine ⟨?_, ⟨h.fd.nodup, fun j hj => ?_, ?_, fun j hj => ?_, fun hr => absurd rfl (hR hr)⟩, hist_inst h.hist hi rfl⟩
      rotate_left
      · cases hj; exact h.fd.notForeign i hi
      · have := h.fd.count; rw [hi] at this; exact this
      · cases hj; exact h.fd.isOpen i hi
      constructor
      · rintro j ⟨⟩; exact hv.refs i hi
      · rintro j ⟨⟩; exact hv.pos i hi
      · intro hn; cases hn
      · intro w x hw hx
        obtain ⟨j, hj, e⟩ := hv.ptr w x hw hx
        rw [hi] at hj
        cases hj
        exact ⟨_, rfl, e⟩
      · exact hv.dead
      · exact hv.own
      · exact hv.extra
      · rintro j ⟨⟩; exact hv.table i hi
      · rintro j ⟨⟩; exact hv.ids i hi
    exact this
  | ret =>
    cases hf : s.frame with
    | none => exact absurd hf ha
    | some p =>
      obtain ⟨w, t⟩ := p
      unfold Rest at h
      rw [hf] at h
      have h : Full q r 1 (eOf (some (w, t))) t s := h
      cases hi : s.inst with
      | none => exact absurd (h.inv.noInst hi).1 (by simp)
      | some i =>
        unfold step ret
        rw [hf, hi]
        dsimp only
        have h1 := full_frame h none
        have he : eOf (some (w, t)) w = 1 := by simp [eOf]
        obtain ⟨s', e1, e2, e3, e4, _⟩ := full_unrefWatch (race := race) (w := w) h1 (by rw [he]; omega) hr (by simp)
        rw [hi] at e1
        rw [e1, ok_bind]
        obtain ⟨e5, e6⟩ := e4 (by omega)
        obtain ⟨i', hi', hid⟩ := e6 i hi
        have e7 : upd (eOf (some (w, t))) w (eOf (some (w, t)) w - 1) = fun _ => 0 := by
          funext v
          unfold upd
          rw [he]
          by_cases hvw : v = w
          · rw [if_pos hvw]
          · rw [if_neg hvw]
            simp only [eOf, Option.map_some, Option.some.injEq]
            rw [if_neg (fun e => hvw e.symm)]
        rw [e7] at e2
        rw [← hid]
        obtain ⟨s', e8, e9, e10⟩ := full_proc e2 e3 hi' (by rw [e5]; exact hr)
        exact ⟨s', e8, e9, fun hrn _ _ => (e10 hrn).trans e5⟩
  | happen file ev =>
    refine ⟨_, rfl, ?_, fun _ _ _ => rfl⟩
    have : Full q r (cOf s.frame) (eOf s.frame) (bOf s.frame) (happen s file ev) := by
      refine full_kernel h rfl rfl rfl ?_ ?_ (hist_happen h.hist file ev)
      · intro hn
        obtain ⟨_, h1, h2, h3⟩ := h.inv.noInst hn
        simp [happen, h1, h2, h3]
      · exact fd_log (e := .happened file ev) h.fd rfl rfl rfl (by simp) (by simp)
    exact this
  | vanish file =>
    refine ⟨_, rfl, ?_, fun _ _ _ => rfl⟩
    have : Full q r (cOf s.frame) (eOf s.frame) (bOf s.frame) (vanish s file) := by
      refine full_kernel h rfl rfl rfl ?_ ?_ (hist_vanish h.hist file)
      · intro hn
        obtain ⟨_, h1, h2, h3⟩ := h.inv.noInst hn
        simp [vanish, h1, h2, h3]
      · exact fd_log (e := .vanished file) h.fd rfl rfl rfl (by simp) (by simp)
    exact this
  | merge file ev =>
    refine ⟨_, rfl, ?_, fun _ _ _ => rfl⟩
    have : Full q r (cOf s.frame) (eOf s.frame) (bOf s.frame) (merge s file ev) := by
      refine full_kernel h rfl rfl rfl (fun hn => (h.inv.noInst hn).2) ?_ (hist_neutral h.hist (neutral_merged file ev))
      exact fd_log (e := .merged file ev) h.fd rfl rfl rfl (by simp) (by simp)
    exact this
  | lose file ev =>
    refine ⟨_, rfl, ?_, fun _ _ _ => rfl⟩
    have : Full q r (cOf s.frame) (eOf s.frame) (bOf s.frame) (lose s file ev) := by
      refine full_kernel h rfl rfl rfl ?_ ?_ (hist_lose h.hist file ev)
      · intro hn
        obtain ⟨_, h1, h2, h3⟩ := h.inv.noInst hn
        simp [lose, overflowed, h1, h2, h3]
      · exact fd_log (e := .lost file ev) h.fd rfl rfl rfl (by simp) (by simp)
    exact this
  | vanishLost file =>
    refine ⟨_, rfl, ?_, fun _ _ _ => rfl⟩
    have : Full q r (cOf s.frame) (eOf s.frame) (bOf s.frame) (vanishLost s file) := by
      refine full_kernel h rfl rfl rfl ?_ ?_ (hist_vanishLost h.hist file)
      · intro hn
        obtain ⟨_, h1, h2, h3⟩ := h.inv.noInst hn
        simp [vanishLost, overflowed, h1, h2, h3]
      · exact fd_log (e := .vanishedLost file) h.fd rfl rfl rfl (by simp) (by simp)
    exact this
  | fopen fd =>
    refine ⟨_, rfl, ?_, fun _ h _ => absurd rfl (h fd)⟩
    have : Full q r (cOf s.frame) (eOf s.frame) (bOf s.frame) { s with foreign := fd :: s.foreign } := by
      refine full_kernel h rfl rfl rfl (fun hn => (h.inv.noInst hn).2) ?_ (hist_foreign h.hist _)
      refine ⟨List.nodup_cons.2 ⟨ha.1, h.fd.nodup⟩, ?_, h.fd.count, h.fd.isOpen, h.fd.source⟩
      intro i hi hm
      rcases List.mem_cons.1 hm with hm | hm
      · refine ha.2 ?_
        unfold State.fd
        have hi : s.inst = some i := hi
        rw [hi, ← hm]
        rfl
      · exact h.fd.notForeign i hi hm
    exact this
  | fclose fd =>
    refine ⟨_, rfl, ?_, fun _ _ h => absurd rfl (h fd)⟩
    have : Full q r (cOf s.frame) (eOf s.frame) (bOf s.frame) { s with foreign := s.foreign.erase fd } := by
      refine full_kernel h rfl rfl rfl (fun hn => (h.inv.noInst hn).2) ?_ (hist_foreign h.hist _)
      exact ⟨h.fd.nodup.erase _, fun i hi hm => h.fd.notForeign i hi (List.mem_of_mem_erase hm), h.fd.count, h.fd.isOpen, h.fd.source⟩
    exact this

theorem rest_init (q : Nat → Prop) (r : Prop) {foreign : List Nat} (hn : foreign.Nodup) : Rest q r (init foreign) := by
  unfold Rest
  refine ⟨?_, ?_, ?_⟩
  · constructor
    · intro i hi; cases hi
    · intro i hi; cases hi
    · intro _; exact ⟨rfl, rfl, rfl, rfl⟩
    · intro w x hw; cases hw
    · intro w x hw; cases hw
    · intro w x hw; cases hw
    · intro w _; simp [eOf, init]
    · intro i hi; cases hi
    · intro i hi; cases hi
  · exact ⟨hn, fun i hi => (by cases hi), rfl, fun i hi => (by cases hi), fun _ i hi => (by cases hi)⟩
  · constructor
    · exact Nat.one_pos
    · intro k hk; cases hk
    · exact .nil
    · intro p hp; cases hp
    · intro w x d hw; cases hw
    · intro w v x y d hw; cases hw
    · intro w x d hw; cases hw
    · intro i hi; cases hi
    · intro k hk; cases hk
    · intro w x hw; cases hw
    · intro w x d hw; cases hw
    · intro w x d hw; cases hw
    · intro w x hw; cases hw
    · intro w _; exact ⟨rfl, rfl⟩
    · intro w f m hm; cases hm
    · intro w x hw; cases hw
    · intro p hp; cases hp
    · intro w ev hm; cases hm

end Verif.Inotify
