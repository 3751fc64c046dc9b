import Verif.Model.RingCb
import Verif.Proof.RingSim

namespace Verif.RingCb
open Verif.C Verif.Ring
open Verif.Ring.Spec (Ptr Op Out Deque)

/-- What has been released so far -/
def State.released (s : State) : List Ptr := s.ring.freed.map (·.2)

def Acc (s : State) (l : List Ptr) : Prop := Exact s.stored s.taken l s.released

/-- The ring works. -/
structure Live (s : State) (d : Deque) : Prop where
  alive : Alive s.ring d
  free : d.free ≠ none
  nz : ∀ p ∈ d.items, p ≠ 0
  flat : d.flat = s.flat
  tight : d.tight = false

def MaxOk (m : Option Int) : Prop := ∀ k, m = some k → -1 ≤ k

/-- All the calls in progress are in `gutil_ring_clear`. -/
def Clears (st : List Frame) : Prop := ∀ fr ∈ st, ∃ n f m, fr = .clear n f m ∧ MaxOk m

inductive Inv (s : State) : Prop
  | top (d : Deque) : Live s d → Clears s.stack → Acc s d.items → Inv s
  | drop (d : Deque) (n : Nat) (m : Option Int) (rest : List Frame) : Live s d → s.stack = .drop n m :: rest → MaxOk m →
      Clears rest → n + 1 < d.items.length → Acc s d.items.tail → Inv s
  | dropLast (d : Deque) (n : Nat) (rest : List Frame) : Live s d → s.stack = .dropLast n :: rest →
      Clears rest → n < d.items.length → Acc s d.items → Inv s
  | unref (l : List Ptr) (i : Nat) : s.ring.refCount = 0 → s.stack = [.unref i l.length] → View s.ring l → s.ring.alloc ≤ 2 ^ 30 →
      s.ring.free ≠ none → i ≤ l.length → Acc s (l.drop i) → Inv s
  | dead : s.ring.refCount = 0 → s.stack = [] → Acc s [] → Inv s

theorem Live.access {s : State} {d : Deque} (h : Live s d) : ¬ s.ring.refCount = 0 := by
  rw [h.alive.ref]; have := h.alive.pos; omega

theorem Live.size {s : State} {d : Deque} (h : Live s d) : size s.ring = .ok (d.items.length : Int) :=
  size_spec h.alive.view h.alive.alloc0 h.alive.alloc1

theorem Live.free' {s : State} {d : Deque} (h : Live s d) : ∃ f, s.ring.free = some f := by
  rw [h.alive.free]
  cases hf : d.free with
  | none => exact absurd hf h.free
  | some f => exact ⟨f, rfl⟩

/-- The maximum size has no effect on what's in the ring. -/
theorem Live.finish {s : State} {d : Deque} (h : Live s d) {m : Option Int} (hm : MaxOk m) :
    ∃ d', Live (finish s m) d' ∧ d'.items = d.items := by
  cases m with
  | none => exact ⟨d, h, rfl⟩
  | some m =>
    refine ⟨{ d with max := m }, ⟨?_, h.free, h.nz, h.flat, h.tight⟩, rfl⟩
    exact { h.alive with maxeq := rfl, maxok := hm m rfl, tight := fun ht => by simp [h.tight] at ht, view := h.alive.view }

theorem finish_acc {s : State} {m : Option Int} {l : List Ptr} (h : Acc s l) : Acc (finish s m) l := by
  cases m <;> exact h

theorem finish_stack (s : State) (m : Option Int) : (finish s m).stack = s.stack := by
  cases m <;> rfl

theorem finish_inv {s : State} {d : Deque} (h : Live s d) (hc : Clears s.stack) (ha : Acc s d.items) {m : Option Int} (hm : MaxOk m) :
    Inv (finish s m) := by
  obtain ⟨d', h1, h2⟩ := h.finish hm
  exact .top d' h1 (by rw [finish_stack]; exact hc) (by rw [h2]; exact finish_acc ha)

theorem acc_shift {a b c : List Ptr} {l t : List Ptr} {x : Ptr} (h : Exact a b l c) (hl : l.Perm (x :: t)) :
    Exact a b t (c ++ [x]) := by
  unfold Exact at *
  rw [List.perm_iff_count] at *
  intro p
  have h1 := h p
  have h2 := hl p
  simp only [List.count_append, List.count_cons, List.count_nil] at *
  omega

theorem enter_acc {s : State} {f : Nat} {p : Ptr} {fr : Frame} {l t : List Ptr} (h : Acc s l) (hl : l.Perm (p :: t)) :
    Acc (enter s f p fr) t := by
  have := acc_shift h hl
  simpa [Acc, enter, State.released] using this

/-- The deque after some elements are gone, the log being that of the ring -/
def gone (d : Deque) (l : List Ptr) (log : List (Nat × Ptr)) : Deque := { d with items := l, freed := log }

theorem Live.moved {s : State} {d : Deque} (h : Live s d) {l : List Ptr} {st e : Int} {log : List (Nat × Ptr)} {stack : List Frame}
    (hv : View { s.ring with start := st, fin := e } l) (hl : ∀ p ∈ l, p ∈ d.items) :
    Live { s with ring := { s.ring with start := st, fin := e, freed := log }, stack := stack } (gone d l log) where
  alive := h.alive.moved (d' := gone d l log) (hv.congr rfl rfl rfl rfl) rfl rfl rfl rfl id rfl
  free := h.free
  nz := fun p hp => h.nz p (hl p hp)
  flat := h.flat
  tight := h.tight

theorem clearIter_inv {s : State} {d : Deque} (h : Live s d) (hc : Clears s.stack) (ha : Acc s d.items) {m : Option Int} (hm : MaxOk m)
    (hne : 0 < d.items.length) (f n : Nat) : ∃ s', clearIter s f n m = .ok s' ∧ Inv s' := by
  cases hl : d.items with
  | nil => rw [hl] at hne; simp at hne
  | cons x t =>
    obtain ⟨st, e, h1, h2⟩ := get_cons (hl ▸ h.alive.view) h.alive.alloc1
    simp only [clearIter, h1, bind, Except.bind]
    refine ⟨_, rfl, .top (gone d t (s.ring.freed ++ [(f, x)])) ?_ ?_ ?_⟩
    · exact h.moved h2 (by rw [hl]; intro p hp; exact List.mem_cons_of_mem _ hp)
    · intro fr hfr
      rcases List.mem_cons.mp hfr with rfl | hfr
      · exact ⟨n, f, m, rfl, hm⟩
      · exact hc fr hfr
    · exact enter_acc (s := { s with ring := { s.ring with start := st, fin := e } }) (l := d.items) ha (by rw [hl]; exact .refl _)

theorem clear_inv {s : State} {d : Deque} (h : Live s d) (hc : Clears s.stack) (ha : Acc s d.items) {m : Option Int} (hm : MaxOk m) :
    ∃ s', clear s m = .ok s' ∧ Inv s' := by
  simp only [clear, h.size, bind, Except.bind]
  by_cases h0 : (d.items.length : Int) > 0
  · obtain ⟨f, hf⟩ := h.free'
    simp only [h0, if_true, hf]
    exact clearIter_inv h hc ha hm (by omega) f _
  · simp only [h0, if_false]
    exact ⟨_, rfl, finish_inv h hc ha hm⟩

theorem head_slot {r : Ring} {x : Ptr} {t : List Ptr} (h : View r (x :: t)) : slot r r.start = .ok x := by
  rcases h with ⟨h, _⟩ | ⟨_, h2, h3, h4, h5⟩
  · cases h
  · have := h5 0 (by simp)
    exact slot_ok h2 (by simpa [idx, h3] using this)

theorem dropIter_inv {s : State} {d : Deque} (h : Live s d) (hc : Clears s.stack) (ha : Acc s d.items) {m : Option Int} (hm : MaxOk m)
    {n : Nat} (hn : n + 1 < d.items.length) : ∃ s', dropIter s n m = .ok s' ∧ Inv s' := by
  cases hl : d.items with
  | nil => rw [hl] at hn; simp at hn
  | cons x t =>
    obtain ⟨f, hf⟩ := h.free'
    simp only [dropIter, head_slot (hl ▸ h.alive.view), bind, Except.bind, hf]
    refine ⟨_, rfl, .drop (gone d d.items (s.ring.freed ++ [(f, x)])) n m s.stack ?_ rfl hm hc hn ?_⟩
    · exact h.moved (st := s.ring.start) (e := s.ring.fin) h.alive.view (fun _ h => h)
    · refine enter_acc ha ?_
      show List.Perm d.items (x :: d.items.tail)
      rw [hl]; exact .refl _

theorem drop_inv {s : State} {d : Deque} (h : Live s d) (hc : Clears s.stack) (ha : Acc s d.items) {m : Option Int} (hm : MaxOk m)
    (n : Int) : ∃ s', drop s n m = .ok s' ∧ Inv s' := by
  simp only [drop, h.size, bind, Except.bind]
  by_cases hn : n > 0
  · simp only [hn, if_true]
    by_cases h0 : (d.items.length : Int) > 0
    · simp only [h0, if_true]
      by_cases h1 : n ≥ (d.items.length : Int)
      · simp only [h1, if_true]
        exact clear_inv h hc ha hm
      · obtain ⟨f, hf⟩ := h.free'
        simp only [h1, if_false, hf, Option.isSome_some, if_true]
        exact dropIter_inv h hc ha hm (by omega)
    · simp only [h0, if_false]
      exact ⟨_, rfl, finish_inv h hc ha hm⟩
  · simp only [hn, if_false]
    exact ⟨_, rfl, finish_inv h hc ha hm⟩

theorem dropLastIter_inv {s : State} {d : Deque} (h : Live s d) (hc : Clears s.stack) (ha : Acc s d.items)
    {n : Nat} (hn : n + 1 < d.items.length) : ∃ s', dropLastIter s n = .ok s' ∧ Inv s' := by
  have hne : d.items ≠ [] := by intro e; rw [e] at hn; simp at hn
  obtain ⟨t, x, hl⟩ : ∃ t x, d.items = t ++ [x] := ⟨d.items.dropLast, d.items.getLast hne, (List.dropLast_concat_getLast hne).symm⟩
  have hv := h.alive.view
  rw [hl] at hv
  obtain ⟨e, he, he0, he1, hx, _, hcons⟩ := view_back hv
  rw [hl] at hn
  simp only [List.length_append, List.length_cons, List.length_nil] at hn
  have htne : t ≠ [] := by rintro rfl; simp at hn
  have hr : 0 ≤ s.ring.start ∧ 0 ≤ s.ring.fin ∧ s.ring.fin ≤ s.ring.alloc ∧ (s.ring.fin < s.ring.alloc ∨ s.ring.alloc = 1) := by
    rcases hv with ⟨h, _⟩ | ⟨_, g2, g3, g4, _⟩
    · simp at h
    · omega
  have := h.alive.alloc1
  obtain ⟨f, hf⟩ := h.free'
  have hee : (if s.ring.fin + s.ring.alloc - 1 < s.ring.alloc then s.ring.fin + s.ring.alloc - 1
      else s.ring.fin + s.ring.alloc - 1 - s.ring.alloc) = e := by
    rw [he]; split <;> split <;> omega
  simp only [dropLastIter, bind, Except.bind]
  rw [chk32_ok (by omega) (by omega)]
  simp only []
  rw [cMod_ok (by omega) (by omega), hee]
  simp only []
  rw [slot_ok (r := { s.ring with fin := e }) he0 hx]
  simp only [hf]
  simp only [← hf]
  refine ⟨_, rfl, .dropLast (gone d t (s.ring.freed ++ [(f, x)])) n s.stack ?_ rfl hc (by show n < t.length; omega) ?_⟩
  · exact h.moved (st := s.ring.start) (e := e) (hcons htne).2 (by rw [hl]; intro p hp; exact List.mem_append_left _ hp)
  · refine enter_acc (s := { s with ring := { s.ring with fin := e } }) (l := d.items) ha ?_
    rw [hl]
    exact List.perm_append_singleton x t

theorem none_ok : MaxOk none := by intro k hk; cases hk

theorem dropLast_inv {s : State} {d : Deque} (h : Live s d) (hc : Clears s.stack) (ha : Acc s d.items)
    (n : Int) : ∃ s', dropLast s n = .ok s' ∧ Inv s' := by
  simp only [dropLast, h.size, bind, Except.bind]
  by_cases hn : n > 0
  · simp only [hn, if_true]
    by_cases h0 : (d.items.length : Int) > 0
    · simp only [h0, if_true]
      by_cases h1 : n ≥ (d.items.length : Int)
      · simp only [h1, if_true]
        exact clear_inv h hc ha none_ok
      · obtain ⟨f, hf⟩ := h.free'
        simp only [h1, if_false, hf, Option.isSome_some, if_true]
        exact dropLastIter_inv h hc ha (by omega)
    · simp only [h0, if_false]
      exact ⟨_, rfl, .top d h hc ha⟩
  · simp only [hn, if_false]
    exact ⟨_, rfl, .top d h hc ha⟩

theorem unrefIter_inv {s : State} {l : List Ptr} {i : Nat} (h0 : s.ring.refCount = 0) (hs : s.stack = []) (hv : View s.ring l)
    (h1 : s.ring.alloc ≤ 2 ^ 30) (hf : s.ring.free ≠ none) (hi : i < l.length) (ha : Acc s (l.drop i)) :
    ∃ s', unrefIter s i l.length = .ok s' ∧ Inv s' := by
  obtain ⟨f, hf'⟩ : ∃ f, s.ring.free = some f := by
    cases h : s.ring.free with
    | none => exact absurd h hf
    | some f => exact ⟨f, rfl⟩
  have hv' := hv
  rcases hv with ⟨rfl, _⟩ | ⟨_, h2, h3, h4, h5⟩
  · simp at hi
  simp only [unrefIter, bind, Except.bind]
  rw [chk32_ok (by omega) (by omega)]
  simp only []
  rw [cMod_ok (by omega) (by omega)]
  simp only []
  rw [slot_ok (by split <;> omega) (h5 i hi)]
  simp only [hf']
  refine ⟨_, rfl, .unref l (i + 1) h0 ?_ (hv'.congr rfl rfl rfl rfl) h1 hf hi ?_⟩
  · simp [enter, hs]
  · refine enter_acc ha ?_
    rw [List.drop_eq_getElem_cons hi]

theorem unref_inv {s : State} {d : Deque} (h : Live s d) (hc : Clears s.stack) (ha : Acc s d.items)
    (hst : s.ring.refCount = 1 → s.stack = []) : ∃ s', unref s = .ok s' ∧ Inv s' := by
  unfold unref
  by_cases h1 : s.ring.refCount = 1
  · obtain ⟨f, hf⟩ := h.free'
    have hsz : size { s.ring with refCount := 0 } = .ok (d.items.length : Int) :=
      size_spec (h.alive.view.congr rfl rfl rfl rfl) h.alive.alloc0 h.alive.alloc1
    simp only [h1, if_true, hf, Option.isSome_some]
    simp only [← hf, hsz, bind, Except.bind]
    by_cases h0 : (d.items.length : Int) > 0
    · simp only [h0, if_true, Int.toNat_natCast]
      exact unrefIter_inv (s := { s with ring := { s.ring with refCount := 0 } }) (l := d.items) rfl (hst h1)
        (h.alive.view.congr rfl rfl rfl rfl) h.alive.alloc1 (by rw [hf]; simp) (by omega) ha
    · simp only [h0, if_false]
      have : d.items = [] := List.length_eq_zero_iff.1 (by omega)
      exact ⟨_, rfl, .dead rfl (hst h1) (by rw [this] at ha; exact ha)⟩
  · simp only [h1, if_false]
    refine ⟨_, rfl, .top { d with refs := d.refs - 1 } ⟨?_, h.free, h.nz, h.flat, h.tight⟩ hc ha⟩
    have := h.alive.ref
    have := h.alive.pos
    exact { h.alive with ref := by simp only [h.alive.ref], pos := by simp only; omega, view := h.alive.view }

theorem setMaxSize_inv {s : State} {d : Deque} (h : Live s d) (hc : Clears s.stack) (ha : Acc s d.items) (n : Int) :
    ∃ s', setMaxSize s n = .ok s' ∧ Inv s' := by
  have hm : MaxOk (some (if n < 0 then -1 else n)) := by
    intro k hk
    cases hk
    split <;> omega
  unfold setMaxSize
  generalize (if n < 0 then -1 else n) = m at *
  dsimp only
  by_cases h1 : s.ring.maxsiz ≠ m
  · rw [if_pos h1]
    simp only [h.size, bind, Except.bind]
    split
    · exact drop_inv h hc ha hm _
    · exact ⟨_, rfl, finish_inv h hc ha hm⟩
  · rw [if_neg h1]
    exact ⟨_, rfl, .top d h hc ha⟩

/-- The functions which don't call free functions -/
def plain : Op → Bool
  | .clear | .drop _ | .dropLast _ | .setMaxSize _ | .unref => false
  | _ => true

/-- What the functions that don't call free functions do to the contents -/
theorem note_inv {s : State} {d d' : Deque} {op : Op} {o : Out} {r : Ring} (h : Live s d) (ha : Acc s d.items)
    (h1 : Spec.Step d op o d') (h2 : Alive r d') (hop : plain op = true) (hok : Allowed s (.call op)) :
    ∃ d2, Live (note s r op o) d2 ∧ Acc (note s r op o) d2.items ∧ (note s r op o).stack = s.stack ∧
      d2.items = d'.items := by
  have hloose : ∀ d1 : Deque, Alive r d1 → Alive r { d1 with tight := false } := fun d1 h =>
    { h with tight := fun ht => by simp at ht, view := h.view }
  have hfr := h.alive.freed
  have hfr2 := h2.freed
  have key : ∀ s2 : State, s2.ring = r → d'.free ≠ none → (∀ p ∈ d'.items, p ≠ 0) → d'.flat = s2.flat →
      Live s2 { d' with tight := false } := by
    rintro s2 rfl h1 h3 h4
    exact ⟨hloose d' h2, h1, h3, h4, rfl⟩
  have hnz := h.nz
  unfold Acc Exact State.released at *
  obtain ⟨h3, hok⟩ := hok
  cases op with
  | clear | drop n | dropLast n | setMaxSize n | unref => cases hop
  | ref =>
    obtain ⟨rfl, rfl⟩ := h1
    exact ⟨_, key _ rfl h.free h.nz h.flat, by simpa only [note, hfr2, hfr] using ha, rfl, rfl⟩
  | setFreeFunc f =>
    obtain ⟨rfl, rfl⟩ := h1
    exact ⟨_, key _ rfl hok h.nz h.flat, by simpa only [note, hfr2, hfr] using ha, rfl, rfl⟩
  | maxSize =>
    obtain ⟨rfl, rfl⟩ := h1
    exact ⟨_, key _ rfl h.free h.nz h.flat, by simpa only [note, hfr2, hfr] using ha, rfl, rfl⟩
  | size =>
    obtain ⟨rfl, rfl⟩ := h1
    exact ⟨_, key _ rfl h.free h.nz h.flat, by simpa only [note, hfr2, hfr] using ha, rfl, rfl⟩
  | compact =>
    obtain ⟨rfl, rfl⟩ := h1
    exact ⟨_, key _ rfl h.free h.nz rfl, by simpa only [note, hfr2, hfr] using ha, rfl, rfl⟩
  | reserve n =>
    obtain ⟨b, rfl, rfl, _⟩ := h1
    exact ⟨_, key _ rfl h.free h.nz h.flat, by simpa only [note, hfr2, hfr] using ha, rfl, rfl⟩
  | canPut n =>
    obtain ⟨rfl, rfl⟩ := h1
    exact ⟨_, key _ rfl h.free h.nz h.flat, by simpa only [note, hfr2, hfr] using ha, rfl, rfl⟩
  | dataAt n =>
    obtain ⟨rfl, rfl⟩ := h1
    exact ⟨_, key _ rfl h.free h.nz h.flat, by simpa only [note, hfr2, hfr] using ha, rfl, rfl⟩
  | flatten =>
    obtain ⟨rfl, rfl⟩ := h1
    exact ⟨_, key _ rfl h.free h.nz rfl, by simpa only [note, hfr2, hfr] using ha, rfl, rfl⟩
  | put p =>
    rcases h1 with ⟨rfl, rfl, _⟩ | ⟨rfl, rfl, _⟩
    · refine ⟨_, key _ rfl h.free ?_ h.flat, ?_, rfl, rfl⟩
      · intro q hq
        rcases List.mem_append.mp hq with hq | hq
        · exact h.nz q hq
        · rw [List.mem_singleton.mp hq]; exact hok.1
      · simp only [note, hfr2]
        rw [hfr] at ha
        rw [List.perm_iff_count] at *
        intro q
        have := ha q
        simp only [List.count_append] at *
        omega
    · exact ⟨_, key _ rfl h.free h.nz h.flat, by simpa only [note, hfr2, hfr] using ha, rfl, rfl⟩
  | putFront p =>
    rcases h1 with ⟨rfl, rfl, _⟩ | ⟨rfl, rfl, _⟩
    · refine ⟨_, key _ rfl h.free ?_ h.flat, ?_, rfl, rfl⟩
      · intro q hq
        rcases List.mem_cons.mp hq with hq | hq
        · rw [hq]; exact hok.1
        · exact h.nz q hq
      · simp only [note, hfr2]
        rw [hfr] at ha
        rw [List.perm_iff_count] at *
        intro q
        have := ha q
        simp only [List.count_append, List.count_cons, List.count_nil] at *
        omega
    · exact ⟨_, key _ rfl h.free h.nz h.flat, by simpa only [note, hfr2, hfr] using ha, rfl, rfl⟩
  | get =>
    obtain ⟨rfl, rfl⟩ := h1
    refine ⟨_, key _ rfl h.free (fun p hp => h.nz p (List.mem_of_mem_tail hp)) h.flat, ?_, rfl, rfl⟩
    simp only [note, hfr2]
    rw [hfr] at ha
    cases hl : d.items with
    | nil => simpa [hl] using ha
    | cons x t =>
      have hx : x ≠ 0 := h.nz x (by rw [hl]; exact List.mem_cons_self)
      simp only [List.head?_cons, Option.getD_some, hx, if_false, List.tail_cons]
      rw [hl] at ha
      rw [List.perm_iff_count] at *
      intro q
      have := ha q
      simp only [List.count_append, List.count_cons, List.count_nil] at *
      omega
  | getLast =>
    obtain ⟨rfl, rfl⟩ := h1
    refine ⟨_, key _ rfl h.free (fun p hp => h.nz p (List.dropLast_subset _ hp)) h.flat, ?_, rfl, rfl⟩
    simp only [note, hfr2]
    rw [hfr] at ha
    by_cases hl : d.items = []
    · simpa [hl] using ha
    · have hx : d.items.getLast hl ≠ 0 := h.nz _ (List.getLast_mem hl)
      rw [List.getLast?_eq_some_getLast hl]
      simp only [Option.getD_some, hx, if_false]
      rw [← List.dropLast_concat_getLast hl] at ha
      rw [List.perm_iff_count] at *
      intro q
      have := ha q
      simp only [List.count_append, List.count_cons, List.count_nil] at *
      omega

theorem plain_inv {s : State} {d : Deque} {op : Op} (h : Live s d) (ha : Acc s d.items)
    (hop : plain op = true)
    (hok : Allowed s (.call op)) :
    ∃ o r d2, Ring.exec s.ring op = .ok (o, r) ∧ Live (note s r op o) d2 ∧ Acc (note s r op o) d2.items ∧
      (note s r op o).stack = s.stack := by
  have hpre : Spec.Pre d op := by
    refine ⟨h.alive.pos, ?_⟩
    obtain ⟨_, hok⟩ := hok
    have hroom : room s = true → d.items.length < 2 ^ 29 := by
      simp only [room, h.size, decide_eq_true_eq]
      omega
    cases op <;> first | trivial | exact hok | exact ⟨hroom hok.2.2, h.flat.trans hok.2.1⟩
  obtain ⟨o, r, d', h1, h2, h3⟩ := sim h.alive op hpre
  have h3' : Alive r d' := by
    rcases h3 with h3 | h3
    · exact h3
    · have := h.alive.pos
      exfalso
      have h3 := h3.1
      cases op <;> simp_all [Spec.Step, plain] <;> grind
  obtain ⟨d2, h4, h5, h6, h7⟩ := note_inv h ha h2 h3' hop hok
  exact ⟨o, r, d2, h1, h4, h5, h6⟩

theorem pre_of {s : State} {d : Deque} {op : Op} (h : Live s d) (hok : Allowed s (.call op)) : Spec.Pre d op := by
  refine ⟨h.alive.pos, ?_⟩
  obtain ⟨_, hok⟩ := hok
  have hroom : room s = true → d.items.length < 2 ^ 29 := by
    simp only [room, h.size, decide_eq_true_eq]
    omega
  cases op <;> first | trivial | exact hok | exact ⟨hroom hok.2.2, h.flat.trans hok.2.1⟩

/-- What the functions which don't remove anything do -/
theorem keeps_inv {s : State} {d : Deque} {op : Op} (h : Live s d) (hl : Keeps op) (hok : Allowed s (.call op)) :
    ∃ o r d2 pre post, Ring.exec s.ring op = .ok (o, r) ∧ Live (note s r op o) d2 ∧ d2.items = pre ++ d.items ++ post ∧
      (note s r op o).stack = s.stack ∧ (note s r op o).stored = s.stored ++ (pre ++ post) ∧ (note s r op o).taken = s.taken ∧
      (note s r op o).released = s.released ∧ ((∀ p, op ≠ .putFront p) → pre = []) ∧
      ((∀ p, op ≠ .put p) → post = []) := by
  have hpos := h.alive.pos
  obtain ⟨o, r, d', h1, h2, h3⟩ := sim h.alive op (pre_of h hok)
  have hok2 := hok.2
  have h4 : ∃ pre post, d'.refs ≠ 0 ∧ d'.items = pre ++ d.items ++ post ∧ d'.free ≠ none ∧ d'.flat = (note s r op o).flat ∧
      (∀ p ∈ d'.items, p ≠ 0) ∧ d'.freed = d.freed ∧ (note s r op o).ring = r ∧
      (note s r op o).stack = s.stack ∧ (note s r op o).stored = s.stored ++ (pre ++ post) ∧ (note s r op o).taken = s.taken ∧
      ((∀ p, op ≠ .putFront p) → pre = []) ∧ ((∀ p, op ≠ .put p) → post = []) := by
    have hr : d.refs ≠ 0 := by omega
    cases op <;> try exact hl.elim
    · obtain ⟨rfl, rfl⟩ := h2
      exact ⟨[], [], Nat.succ_ne_zero _, by simp, h.free, h.flat, h.nz, rfl, rfl, rfl, by simp [note], rfl, fun _ => rfl, fun _ => rfl⟩
    · obtain ⟨rfl, rfl⟩ := h2
      exact ⟨[], [], hr, by simp, hok2, h.flat, h.nz, rfl, rfl, rfl, by simp [note], rfl, fun _ => rfl, fun _ => rfl⟩
    · obtain ⟨rfl, rfl⟩ := h2
      exact ⟨[], [], hr, by simp, h.free, h.flat, h.nz, rfl, rfl, rfl, by simp [note], rfl, fun _ => rfl, fun _ => rfl⟩
    · obtain ⟨rfl, rfl⟩ := h2
      exact ⟨[], [], hr, by simp, h.free, h.flat, h.nz, rfl, rfl, rfl, by simp [note], rfl, fun _ => rfl, fun _ => rfl⟩
    · obtain ⟨rfl, rfl⟩ := h2
      exact ⟨[], [], hr, by simp, h.free, rfl, h.nz, rfl, rfl, rfl, by simp [note], rfl, fun _ => rfl, fun _ => rfl⟩
    · obtain ⟨b, rfl, rfl, _⟩ := h2
      exact ⟨[], [], hr, by simp, h.free, h.flat, h.nz, rfl, rfl, rfl, by simp [note], rfl, fun _ => rfl, fun _ => rfl⟩
    · obtain ⟨rfl, rfl⟩ := h2
      exact ⟨[], [], hr, by simp, h.free, h.flat, h.nz, rfl, rfl, rfl, by simp [note], rfl, fun _ => rfl, fun _ => rfl⟩
    · rename_i p
      rcases h2 with ⟨rfl, rfl, _⟩ | ⟨rfl, rfl, _⟩
      · refine ⟨[], [p], hr, by simp, h.free, h.flat, ?_, rfl, rfl, rfl, by simp [note], rfl, fun _ => rfl, fun hp => absurd rfl (hp p)⟩
        intro q hq
        rcases List.mem_append.mp hq with hq | hq
        · exact h.nz q hq
        · rw [List.mem_singleton.mp hq]; exact hok2.1
      · exact ⟨[], [], hr, by simp, h.free, h.flat, h.nz, rfl, rfl, rfl, by simp [note], rfl, fun _ => rfl, fun _ => rfl⟩
    · rename_i p
      rcases h2 with ⟨rfl, rfl, _⟩ | ⟨rfl, rfl, _⟩
      · refine ⟨[p], [], hr, by simp, h.free, h.flat, ?_, rfl, rfl, rfl, by simp [note], rfl, fun hp => absurd rfl (hp p), fun _ => rfl⟩
        intro q hq
        rcases List.mem_cons.mp hq with hq | hq
        · rw [hq]; exact hok2.1
        · exact h.nz q hq
      · exact ⟨[], [], hr, by simp, h.free, h.flat, h.nz, rfl, rfl, rfl, by simp [note], rfl, fun _ => rfl, fun _ => rfl⟩
    · obtain ⟨rfl, rfl⟩ := h2
      exact ⟨[], [], hr, by simp, h.free, h.flat, h.nz, rfl, rfl, rfl, by simp [note], rfl, fun _ => rfl, fun _ => rfl⟩
    · obtain ⟨rfl, rfl⟩ := h2
      exact ⟨[], [], hr, by simp, h.free, rfl, h.nz, rfl, rfl, rfl, by simp [note], rfl, fun _ => rfl, fun _ => rfl⟩
  obtain ⟨pre, post, g1, g2, g3, g4, g5, g6, g7, g8, g9, g10, g11⟩ := h4
  have h3' : Alive r d' := by
    rcases h3 with h3 | h3
    · exact h3
    · exact absurd h3.1 g1
  have h5 : Alive r { d' with tight := false } := { h3' with tight := fun ht => by simp at ht, view := h3'.view }
  refine ⟨o, r, { d' with tight := false }, pre, post, h1, ⟨by rw [g7]; exact h5, g3, g5, g4, rfl⟩, g2, g8, g9, g10, ?_, g11⟩
  simp only [State.released, g7, h3'.freed, g6, h.alive.freed]

theorem plain_call {s : State} {op : Op} (h : ¬ s.ring.refCount = 0)
    (hop : plain op = true) :
    call s op = (Ring.exec s.ring op).map fun x => note s x.2 op x.1 := by
  cases op <;> simp only [plain, Bool.false_eq_true] at hop <;> simp only [call, h, if_false, bind, Except.bind, Except.map] <;>
    cases Ring.exec s.ring _ <;> rfl

theorem keeps_plain {op : Op} (h : Keeps op) : plain op = true := by
  cases op <;> simp_all [Keeps, plain]

theorem ret_clear {s : State} {d : Deque} {n f : Nat} {m : Option Int} {rest : List Frame} (h : Live s d)
    (hs : s.stack = .clear n f m :: rest) (hm : MaxOk m) (hc : Clears rest) (ha : Acc s d.items) : ∃ s', ret s = .ok s' ∧ Inv s' := by
  have h' : Live { s with stack := rest } d := ⟨h.alive, h.free, h.nz, h.flat, h.tight⟩
  simp only [ret, hs, h.access, if_false, h.size, bind, Except.bind]
  by_cases h1 : n > 0 ∧ (d.items.length : Int) > 0
  · rw [if_pos h1]
    exact clearIter_inv h' hc ha hm (by omega) f _
  · rw [if_neg h1]
    exact ⟨_, rfl, finish_inv h' hc ha hm⟩

theorem ret_drop {s : State} {d : Deque} {n : Nat} {m : Option Int} {rest : List Frame} (h : Live s d)
    (hs : s.stack = .drop n m :: rest) (hm : MaxOk m) (hc : Clears rest) (hn : n + 1 < d.items.length) (ha : Acc s d.items.tail) :
    ∃ s', ret s = .ok s' ∧ Inv s' := by
  obtain ⟨h1, h2, h3⟩ := view_front h.alive.view 1 (by omega)
  have := h.alive.alloc1
  have h0 : s.ring.start < s.ring.alloc := by
    rcases h.alive.view with ⟨e, _⟩ | ⟨_, _, e, _⟩
    · rw [e] at hn; simp at hn
    · exact e
  simp only [ret, hs, h.access, if_false, bind, Except.bind]
  rw [chk32_ok (by omega) (by omega)]
  simp only []
  rw [cMod_ok (by omega) (by omega)]
  simp only []
  generalize hst : (if s.ring.start + 1 < s.ring.alloc then s.ring.start + 1 else s.ring.start + 1 - s.ring.alloc) = st
  have hst' : (if s.ring.start + ((1 : Nat) : Int) < s.ring.alloc then s.ring.start + ((1 : Nat) : Int)
    else s.ring.start + ((1 : Nat) : Int) - s.ring.alloc) = st := hst
  rw [hst'] at h3
  rw [List.drop_one] at h3
  have h4 : Live { s with ring := { s.ring with start := st }, stack := rest } (gone d d.items.tail s.ring.freed) :=
    h.moved (st := st) (e := s.ring.fin) (log := s.ring.freed) h3 (fun p hp => List.mem_of_mem_tail hp)
  have h5 : Acc { s with ring := { s.ring with start := st }, stack := rest } (gone d d.items.tail s.ring.freed).items := ha
  by_cases hn0 : n > 0
  · rw [if_pos hn0]
    exact dropIter_inv h4 hc h5 hm (by simp only [gone, List.length_tail]; omega)
  · rw [if_neg hn0]
    exact ⟨_, rfl, finish_inv h4 hc h5 hm⟩

theorem ret_dropLast {s : State} {d : Deque} {n : Nat} {rest : List Frame} (h : Live s d)
    (hs : s.stack = .dropLast n :: rest) (hc : Clears rest) (hn : n < d.items.length) (ha : Acc s d.items) :
    ∃ s', ret s = .ok s' ∧ Inv s' := by
  have h' : Live { s with stack := rest } d := ⟨h.alive, h.free, h.nz, h.flat, h.tight⟩
  simp only [ret, hs, h.access, if_false, bind, Except.bind]
  by_cases hn0 : n > 0
  · rw [if_pos hn0]
    exact dropLastIter_inv h' hc ha (by omega)
  · rw [if_neg hn0]
    exact ⟨_, rfl, .top d h' hc ha⟩

theorem step_inv {s : State} {a : Act} (h : Inv s) (ha : Allowed s a) (hp : Polite s a) : ∃ s', step s a = .ok s' ∧ Inv s' := by
  cases a with
  | ret =>
    show ∃ s', ret s = .ok s' ∧ Inv s'
    cases h with
    | top d h hc hacc =>
      cases hs : s.stack with
      | nil => exact absurd hs ha
      | cons fr rest =>
        obtain ⟨n, f, m, rfl, hm⟩ := hc fr (by rw [hs]; exact List.mem_cons_self)
        exact ret_clear h hs hm (fun x hx => hc x (by rw [hs]; exact List.mem_cons_of_mem _ hx)) hacc
    | drop d n m rest h hs hm hc hn hacc => exact ret_drop h hs hm hc hn hacc
    | dropLast d n rest h hs hc hn hacc => exact ret_dropLast h hs hc hn hacc
    | unref l i h0 hs hv h1 hf hi hacc =>
      simp only [ret, hs, bind, Except.bind]
      by_cases hlt : i < l.length
      · rw [if_pos hlt]
        exact unrefIter_inv (s := { s with stack := [] }) h0 rfl hv h1 hf hlt hacc
      · rw [if_neg hlt]
        have : l.drop i = [] := List.drop_eq_nil_of_le (by omega)
        rw [this] at hacc
        exact ⟨_, rfl, .dead h0 rfl hacc⟩
    | dead h0 hs hacc => exact absurd hs ha
  | call op =>
    show ∃ s', call s op = .ok s' ∧ Inv s'
    have hpos : 0 < s.ring.refCount := ha.1
    cases h with
    | top d h hc hacc =>
      by_cases hop : plain op = true
      · obtain ⟨o, r, d2, h1, h2, h3, h4⟩ := plain_inv h hacc hop ha
        rw [plain_call h.access hop, h1]
        exact ⟨_, rfl, .top d2 h2 (by rw [h4]; exact hc) h3⟩
      · cases op <;> try (exact absurd rfl hop)
        · simp only [call, h.access, if_false]; exact unref_inv h hc hacc ha.2
        · simp only [call, h.access, if_false]; exact setMaxSize_inv h hc hacc _
        · simp only [call, h.access, if_false]; exact clear_inv h hc hacc none_ok
        · simp only [call, h.access, if_false]; exact drop_inv h hc hacc none_ok _
        · simp only [call, h.access, if_false]; exact dropLast_inv h hc hacc _
    | drop d n m rest h hs hm hc hn hacc =>
      have hl : Keeps op ∧ ∀ p, op ≠ .putFront p := by simpa [Polite, hs] using hp
      obtain ⟨o, r, d2, pre, post, h1, h2, h3, h4, h5, h6, h7, h8, _⟩ := keeps_inv h hl.1 ha
      rw [plain_call h.access (keeps_plain hl.1), h1]
      cases h8 hl.2
      rw [List.nil_append] at h3
      have hne : d.items ≠ [] := by intro e; rw [e] at hn; simp at hn
      refine ⟨_, rfl, .drop d2 n m rest h2 (by rw [h4]; exact hs) hm hc (by rw [h3, List.length_append]; omega) ?_⟩
      unfold Acc Exact at *
      simp only [h5, h6, h7, h3, List.nil_append, List.tail_append_of_ne_nil hne]
      rw [List.perm_iff_count] at *
      intro q
      have := hacc q
      simp only [List.count_append] at *
      omega
    | dropLast d n rest h hs hc hn hacc =>
      have hl : Keeps op := by simpa [Polite, hs] using hp
      obtain ⟨o, r, d2, pre, post, h1, h2, h3, h4, h5, h6, h7, h8, _⟩ := keeps_inv h hl ha
      rw [plain_call h.access (keeps_plain hl), h1]
      refine ⟨_, rfl, .dropLast d2 n rest h2 (by rw [h4]; exact hs) hc (by rw [h3]; simp only [List.length_append]; omega) ?_⟩
      unfold Acc Exact at *
      simp only [h5, h6, h7, h3]
      rw [List.perm_iff_count] at *
      intro q
      have := hacc q
      simp only [List.count_append] at *
      omega
    | unref l i h0 => omega
    | dead h0 => omega

theorem new_inv {reserved max : Int} {f : Nat} {s : State} (h0 : 0 ≤ reserved) (h1 : reserved ≤ 2 ^ 29)
    (h : new reserved max f = .ok s) : Inv s := by
  obtain ⟨r, h2, h3⟩ := new_alive reserved max (some f) h0 h1
  simp only [new, h2, bind, Except.bind] at h
  cases h
  refine .top { Deque.new reserved max (some f) with tight := false } ⟨?_, by simp [Deque.new], by simp [Deque.new], rfl, rfl⟩
    (fun fr hfr => by cases hfr) ?_
  · exact { h3 with tight := fun ht => by simp at ht, view := h3.view }
  · have : r.freed = [] := h3.freed
    simp [Acc, Exact, State.released, this, Deque.new]

theorem reach_inv {s : State} (h : Reach Polite s) : Inv s := by
  induction h with
  | new h0 h1 h => exact new_inv h0 h1 h
  | step _ ha hp hs ih =>
    obtain ⟨s1, h1, h2⟩ := step_inv ih ha hp
    rw [h1] at hs
    cases hs
    exact h2

end Verif.RingCb
