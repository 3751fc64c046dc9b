import Verif.Model.Ring
import Verif.Proof.CBasic

namespace Verif.Ring
open Verif.C Spec

/-- The ring holds the elements `l`. -/
def View (r : Ring) (l : List Ptr) : Prop :=
  (l = [] ∧ r.start = -1 ∧ r.fin = -1) ∨
  (l ≠ [] ∧ 0 ≤ r.start ∧ r.start < r.alloc ∧
    ((r.start < r.fin ∧ (l.length : Int) = r.fin - r.start ∧
        (r.fin < r.alloc ∨ (r.fin = r.alloc ∧ r.alloc = 1))) ∨
     (0 ≤ r.fin ∧ r.fin ≤ r.start ∧ (l.length : Int) = r.alloc + r.fin - r.start)) ∧
    ∀ i, (h : i < l.length) → r.data[idx r.start r.alloc i]? = some (some l[i]))

/-- The representation invariant of a ring which is alive. -/
structure Alive (r : Ring) (d : Deque) : Prop where
  ref : r.refCount = d.refs
  pos : 0 < d.refs
  alloc0 : 0 ≤ r.alloc
  alloc1 : r.alloc ≤ 2 ^ 30
  free : r.free = d.free
  freed : r.freed = d.freed
  maxeq : r.maxsiz = d.max
  maxok : -1 ≤ d.max
  tight : d.tight = true → d.max < 0 ∨ r.alloc ≤ d.max
  len : (r.data.length : Int) ≤ r.alloc
  len' : d.flat = false → (r.data.length : Int) = r.alloc
  view : View r d.items

/-- ... or dead. -/
def Rep (r : Ring) (d : Deque) : Prop :=
  Alive r d ∨ (d.refs = 0 ∧ r.refCount = 0 ∧ d.items = [] ∧ r.freed = d.freed)

theorem slot_ok {r : Ring} {i : Int} {p : Ptr} (h0 : 0 ≤ i) (h : r.data[i.toNat]? = some (some p)) :
    slot r i = .ok p := by
  simp [slot, rd_ok h0 h, bind, Except.bind]

theorem View.length_le {r : Ring} {l : List Ptr} (h : View r l) (h0 : 0 ≤ r.alloc) :
    (l.length : Int) ≤ r.alloc := by
  rcases h with ⟨rfl, _⟩ | ⟨_, h1, h2, h3, _⟩
  · simpa using h0
  · omega

theorem size_spec {r : Ring} {l : List Ptr} (h : View r l) (h0 : 0 ≤ r.alloc)
    (h1 : r.alloc ≤ 2 ^ 30) : size r = .ok (l.length : Int) := by
  rcases h with ⟨rfl, hs, _⟩ | ⟨_, h2, h3, h4, _⟩
  · simp [size, hs]
  · simp only [size, h2, if_true]
    rcases h4 with ⟨h5, h6, h7⟩ | ⟨h5, h6, h7⟩
    · have : ¬ r.start > r.fin := by omega
      simp only [this, if_false, h5, if_true]
      rw [chk32_ok (by omega) (by omega), h6]
    · by_cases hc : r.start > r.fin
      · simp only [hc, if_true]
        rw [chk32_ok (by omega) (by omega)]
        simp only [bind, Except.bind]
        rw [chk32_ok (by omega) (by omega), h7]
      · have h8 : ¬ r.fin > r.start := by omega
        simp only [hc, h8, if_false]
        congr 1
        omega

theorem get_nil {r : Ring} (h : View r []) : get r = .ok (0, r) := by
  rcases h with ⟨_, hs, _⟩ | ⟨h, _⟩
  · simp [get, hs]
  · exact (h rfl).elim

/-- Taking the oldest element. -/
theorem get_cons {r : Ring} {x : Ptr} {t : List Ptr} (h : View r (x :: t))
    (h1 : r.alloc ≤ 2 ^ 30) :
    ∃ s e, get r = .ok (x, { r with start := s, fin := e }) ∧
      View { r with start := s, fin := e } t := by
  rcases h with ⟨h, _⟩ | ⟨_, h2, h3, h4, h5⟩
  · cases h
  have hx : r.data[r.start.toNat]? = some (some x) := by
    have := h5 0 (by simp)
    simpa [idx, h3] using this
  simp only [List.length_cons] at h4 h5
  simp only [get, h2, if_true, slot_ok h2 hx, bind, Except.bind]
  rw [chk32_ok (by omega) (by omega)]
  simp only []
  by_cases he : r.start + 1 = r.fin
  · simp only [he, if_true]
    refine ⟨-1, -1, rfl, .inl ⟨?_, rfl, rfl⟩⟩
    cases t with
    | nil => rfl
    | cons y t => simp only [List.length_cons] at h4; omega
  · simp only [he, if_false]
    rw [cMod_ok (by omega) (by omega)]
    simp only []
    by_cases he' : (if r.start + 1 < r.alloc then r.start + 1 else r.start + 1 - r.alloc) = r.fin
    · simp only [he', if_true]
      refine ⟨-1, -1, rfl, .inl ⟨?_, rfl, rfl⟩⟩
      cases t with
      | nil => rfl
      | cons y t => simp only [List.length_cons] at h4; split at he' <;> omega
    · simp only [he', if_false]
      refine ⟨_, r.fin, rfl, .inr ⟨?_, ?_, ?_, ?_, ?_⟩⟩
      · rintro rfl
        simp only [List.length_nil] at h4
        split at he' <;> omega
      · simp only; split <;> omega
      · simp only; split <;> omega
      · simp only; split at he' <;> simp only [*, if_true, if_false] <;> omega
      · intro i hi
        have := h5 (i + 1) (by omega)
        rw [List.getElem_cons_succ] at this
        rw [← this]
        congr 1
        simp only [idx]
        congr 1
        have := h4
        split at he' <;> simp only [*, if_true, if_false] <;> split <;> split <;> omega

theorem getLast_nil {r : Ring} (h : View r []) : getLast r = .ok (0, r) := by
  rcases h with ⟨_, hs, _⟩ | ⟨h, _⟩
  · simp [getLast, hs]
  · exact (h rfl).elim

/-- The new end after removing the newest element. -/
theorem view_back {r : Ring} {x : Ptr} {t : List Ptr} (h : View r (t ++ [x])) :
    ∃ e : Int, e = (if r.fin - 1 < 0 then r.fin + r.alloc - 1 else r.fin - 1) ∧ 0 ≤ e ∧ e < r.alloc ∧
      r.data[e.toNat]? = some (some x) ∧
      (t = [] → e = r.start) ∧ (t ≠ [] → e ≠ r.start ∧ View { r with fin := e } t) := by
  rcases h with ⟨h, _⟩ | ⟨_, h2, h3, h4, h5⟩
  · simp at h
  simp only [List.length_append, List.length_cons, List.length_nil] at h4 h5
  have hx := h5 t.length (by omega)
  rw [List.getElem_append_right (Nat.le_refl _)] at hx
  simp only [Nat.sub_self, List.getElem_cons_zero] at hx
  refine ⟨_, rfl, by split <;> omega, by split <;> omega, ?_, ?_, ?_⟩
  · rw [← hx]
    congr 1
    simp only [idx]
    congr 1
    split <;> split <;> omega
  · rintro rfl
    simp only [List.length_nil] at h4
    split <;> omega
  · intro ht
    have hlen : 0 < t.length := by
      cases t with
      | nil => exact (ht rfl).elim
      | cons => simp
    refine ⟨by split <;> omega, .inr ⟨ht, h2, h3, ?_, ?_⟩⟩
    · simp only; split <;> omega
    · intro i hi
      have := h5 i (by omega)
      rw [List.getElem_append_left hi] at this
      exact this

/-- Taking the newest element. -/
theorem getLast_snoc {r : Ring} {x : Ptr} {t : List Ptr} (h : View r (t ++ [x]))
    (h1 : r.alloc ≤ 2 ^ 30) :
    ∃ s e, getLast r = .ok (x, { r with start := s, fin := e }) ∧
      View { r with start := s, fin := e } t := by
  obtain ⟨e, he, he0, he1, hx, hnil, hcons⟩ := view_back h
  rcases h with ⟨h, _⟩ | ⟨_, h2, h3, h4, h5⟩
  · simp at h
  simp only [getLast, h2, if_true, bind, Except.bind]
  rw [chk32_ok (by omega) (by omega)]
  simp only []
  rw [cMod_ok (by omega) (by omega)]
  have hee : (if r.fin + r.alloc - 1 < r.alloc then r.fin + r.alloc - 1
      else r.fin + r.alloc - 1 - r.alloc) = e := by
    rw [he]; split <;> split <;> omega
  simp only [hee, slot_ok he0 hx]
  by_cases hs : r.start = e
  · simp only [hs, if_true]
    refine ⟨-1, -1, rfl, .inl ⟨?_, rfl, rfl⟩⟩
    cases t with
    | nil => rfl
    | cons y t => exact ((hcons (by simp)).1 hs.symm).elim
  · simp only [hs, if_false]
    refine ⟨r.start, e, rfl, ?_⟩
    apply (hcons _).2
    rintro rfl
    exact hs (hnil rfl).symm

theorem callFree_some {r : Ring} {f : Nat} (h : r.free = some f) (p : Ptr) :
    callFree r p = { r with freed := r.freed ++ [(f, p)] } := by
  simp [callFree, h]

/-- Changes made by the removal functions. -/
def moved (r : Ring) (s e : Int) (log : List (Nat × Ptr)) : Ring :=
  { r with start := s, fin := e, freed := log }

theorem View.congr {r r' : Ring} {l : List Ptr} (h : View r l) (h1 : r'.alloc = r.alloc)
    (h2 : r'.start = r.start) (h3 : r'.fin = r.fin) (h4 : r'.data = r.data) : View r' l := by
  unfold View at *
  rw [h1, h2, h3, h4]
  exact h

theorem clearLoop_spec {f : Nat} (l : List Ptr) : ∀ (r : Ring), View r l → 0 ≤ r.alloc →
    r.alloc ≤ 2 ^ 30 → r.free = some f →
    ∃ s e, clearLoop l.length r = .ok (moved r s e (r.freed ++ l.map (f, ·))) ∧
      View (moved r s e (r.freed ++ l.map (f, ·))) [] := by
  induction l with
  | nil =>
    intro r hv _ _ _
    refine ⟨r.start, r.fin, ?_, ?_⟩
    · simp [clearLoop, moved]
    · exact hv.congr rfl rfl rfl rfl
  | cons x t ih =>
    intro r hv h0 h1 hf
    obtain ⟨s, e, hg, hv'⟩ := get_cons hv h1
    simp only [List.length_cons, clearLoop, hg, bind, Except.bind]
    rw [callFree_some (r := { r with start := s, fin := e }) hf x]
    have hv2 : View (moved r s e (r.freed ++ [(f, x)])) t := hv'.congr rfl rfl rfl rfl
    have hsz := size_spec hv2 h0 h1
    simp only [moved] at hsz
    rw [hsz]
    simp only []
    by_cases hc : t.length > 0
    · rw [if_pos ⟨hc, by omega⟩]
      obtain ⟨s', e', hg', hv3⟩ := ih _ hv2 h0 h1 hf
      refine ⟨s', e', ?_, ?_⟩
      · simp only [moved] at hg' ⊢
        rw [hg']
        simp
      · exact hv3.congr rfl rfl rfl rfl
    · rw [if_neg (by omega)]
      have : t = [] := List.length_eq_zero_iff.1 (by omega)
      subst this
      exact ⟨s, e, rfl, hv2⟩

/-- Log of free functions after releasing `l`. -/
def relLog (r : Ring) (l : List Ptr) : List (Nat × Ptr) :=
  match r.free with
  | none => r.freed
  | some f => r.freed ++ l.map (f, ·)

theorem relLog_none {r : Ring} (h : r.free = none) (l : List Ptr) : relLog r l = r.freed := by
  simp [relLog, h]

theorem relLog_some {r : Ring} {f : Nat} (h : r.free = some f) (l : List Ptr) :
    relLog r l = r.freed ++ l.map (f, ·) := by
  simp [relLog, h]

theorem relLog_nil (r : Ring) : relLog r [] = r.freed := by
  unfold relLog; split <;> simp

theorem clear_spec {r : Ring} {l : List Ptr} (hv : View r l) (h0 : 0 ≤ r.alloc)
    (h1 : r.alloc ≤ 2 ^ 30) :
    ∃ s e, clear r = .ok (moved r s e (relLog r l)) ∧ View (moved r s e (relLog r l)) [] := by
  simp only [clear, size_spec hv h0 h1, bind, Except.bind]
  by_cases hl : l = []
  · subst hl
    refine ⟨r.start, r.fin, ?_, hv.congr rfl rfl rfl rfl⟩
    simp only [List.length_nil, Int.natCast_zero, gt_iff_lt, Int.lt_irrefl, if_false]
    simp [moved, relLog_nil]
  · have hlen : 0 < l.length := by
      cases l with
      | nil => exact (hl rfl).elim
      | cons => simp
    rw [if_pos (show (l.length : Int) > 0 by omega)]
    cases hf : r.free with
    | none =>
      refine ⟨-1, -1, ?_, .inl ⟨rfl, rfl, rfl⟩⟩
      simp [moved, hf, relLog_none hf]
    | some f =>
      obtain ⟨s, e, h2, h3⟩ := clearLoop_spec l r hv h0 h1 hf
      rw [relLog_some hf]
      exact ⟨s, e, by simpa using h2, h3⟩

/-- Forgetting the oldest elements. -/
theorem view_front {r : Ring} {l : List Ptr} (h : View r l) (n : Nat) (hn : n < l.length) :
    0 ≤ r.start + n ∧ r.start + n < 2 * r.alloc ∧
    View { r with start := if r.start + n < r.alloc then r.start + n else r.start + n - r.alloc }
      (l.drop n) := by
  rcases h with ⟨rfl, _⟩ | ⟨_, h2, h3, h4, h5⟩
  · simp at hn
  refine ⟨by omega, by omega, .inr ⟨?_, ?_, ?_, ?_, ?_⟩⟩
  · intro e
    have := congrArg List.length e
    simp at this; omega
  · simp only; split <;> omega
  · simp only; split <;> omega
  · simp only [List.length_drop]; split <;> omega
  · intro i hi
    rw [List.length_drop] at hi
    have := h5 (n + i) (by omega)
    rw [List.getElem_drop, ← this]
    congr 1
    simp only [idx]
    congr 1
    split <;> split <;> split <;> omega

theorem dropLoop_spec {f : Nat} (n : Nat) : ∀ (r : Ring) (l : List Ptr), View r l → n < l.length →
    r.alloc ≤ 2 ^ 30 → r.free = some f →
    ∃ s, dropLoop n r = .ok (moved r s r.fin (r.freed ++ (l.take n).map (f, ·))) ∧
      View (moved r s r.fin (r.freed ++ (l.take n).map (f, ·))) (l.drop n) := by
  induction n with
  | zero =>
    intro r l hv _ _ _
    exact ⟨r.start, by simp [dropLoop, moved], hv.congr rfl rfl rfl rfl⟩
  | succ n ih =>
    intro r l hv hn h1 hf
    cases l with
    | nil => simp at hn
    | cons x t =>
      obtain ⟨h2, h3, h4⟩ := view_front hv 1 (by simp only [List.length_cons] at hn ⊢; omega)
      have hx : 0 ≤ r.start ∧ r.start < r.alloc ∧ r.data[r.start.toNat]? = some (some x) := by
        rcases hv with ⟨h, _⟩ | ⟨_, g2, g3, _, g5⟩
        · cases h
        · refine ⟨g2, g3, ?_⟩
          have := g5 0 (by simp)
          simpa [idx, g3] using this
      simp only [dropLoop, slot_ok hx.1 hx.2.2, bind, Except.bind]
      rw [callFree_some hf]
      simp only []
      rw [chk32_ok (by omega) (by omega)]
      simp only []
      rw [cMod_ok (by omega) (by omega)]
      simp only [Int.natCast_one, List.drop_succ_cons, List.drop_zero] at h4 ⊢
      have hv2 : View (moved r (if r.start + 1 < r.alloc then r.start + 1 else r.start + 1 - r.alloc)
        r.fin (r.freed ++ [(f, x)])) t := h4.congr rfl rfl rfl rfl
      obtain ⟨s', hg', hv3⟩ := ih _ t hv2 (by simpa using hn) h1 hf
      refine ⟨s', ?_, ?_⟩
      · simp only [moved] at hg' ⊢
        rw [hg']
        simp
      · exact hv3.congr rfl rfl rfl rfl

/-- Forgetting the newest elements. -/
theorem view_back_n {r : Ring} {l : List Ptr} (h : View r l) (n : Nat) (hn : 0 < n) (hn' : n < l.length) :
    View { r with fin := if r.fin - n < 0 then r.fin + r.alloc - n else r.fin - n }
      (l.take (l.length - n)) ∧ 0 ≤ r.fin ∧ r.fin ≤ r.alloc := by
  rcases h with ⟨rfl, _⟩ | ⟨_, h2, h3, h4, h5⟩
  · simp at hn'
  refine ⟨.inr ⟨?_, h2, h3, ?_, ?_⟩, by omega, by omega⟩
  · intro e
    have := congrArg List.length e
    simp only [List.length_take, List.length_nil] at this; omega
  · simp only [List.length_take]; split <;> omega
  · intro i hi
    rw [List.length_take] at hi
    rw [List.getElem_take]
    exact h5 i (by omega)

theorem dropLastLoop_spec {f : Nat} (n : Nat) : ∀ (r : Ring) (l : List Ptr), View r l → n < l.length →
    r.alloc ≤ 2 ^ 30 → r.free = some f →
    ∃ e, let log := r.freed ++ (l.drop (l.length - n)).reverse.map (f, ·)
      dropLastLoop n r = .ok (moved r r.start e log) ∧
      View (moved r r.start e log) (l.take (l.length - n)) := by
  induction n with
  | zero =>
    intro r l hv _ _ _
    refine ⟨r.fin, by simp [dropLastLoop, moved], ?_⟩
    simp only [Nat.sub_zero, List.take_length]
    exact hv.congr rfl rfl rfl rfl
  | succ n ih =>
    intro r l hv hn h1 hf
    have hne : l ≠ [] := by rintro rfl; simp at hn
    obtain ⟨t, x, rfl⟩ : ∃ t x, l = t ++ [x] := ⟨l.dropLast, l.getLast hne, (List.dropLast_concat_getLast hne).symm⟩
    obtain ⟨e, he, he0, he1, hx, _, hcons⟩ := view_back hv
    simp only [List.length_append, List.length_cons, List.length_nil] at hn
    have hr : 0 ≤ r.start ∧ 0 ≤ r.fin ∧ r.fin ≤ r.alloc ∧ (r.fin < r.alloc ∨ r.alloc = 1) := by
      rcases hv with ⟨h, _⟩ | ⟨_, g2, g3, g4, _⟩
      · simp at h
      · omega
    have htne : t ≠ [] := by rintro rfl; simp at hn
    have hv2 := (hcons htne).2
    simp only [dropLastLoop, bind, Except.bind]
    rw [chk32_ok (by omega) (by omega)]
    simp only []
    rw [cMod_ok (by omega) (by omega)]
    have hee : (if r.fin + r.alloc - 1 < r.alloc then r.fin + r.alloc - 1
        else r.fin + r.alloc - 1 - r.alloc) = e := by
      rw [he]; split <;> split <;> omega
    simp only [hee]
    rw [slot_ok (r := { r with fin := e }) he0 hx]
    simp only []
    rw [callFree_some (r := { r with fin := e }) hf x]
    have hv3 : View (moved r r.start e (r.freed ++ [(f, x)])) t := hv2.congr rfl rfl rfl rfl
    obtain ⟨e', hg', hv4⟩ := ih _ t hv3 (by omega) h1 hf
    have e1 : (t ++ [x]).length - (n + 1) = t.length - n := by simp
    have e2 : (t ++ [x]).drop (t.length - n) = t.drop (t.length - n) ++ [x] := by
      rw [List.drop_append_of_le_length (by omega)]
    have e3 : (t ++ [x]).take (t.length - n) = t.take (t.length - n) := by
      rw [List.take_append_of_le_length (by omega)]
    refine ⟨e', ?_⟩
    simp only [e1, e2, e3]
    refine ⟨?_, ?_⟩
    · simp only [moved] at hg' ⊢
      rw [hg']
      simp
    · refine hv4.congr ?_ ?_ ?_ ?_ <;> rfl

theorem unrefLoop_spec {f : Nat} (n : Nat) : ∀ (r : Ring) (l : List Ptr) (i : Nat), View r l →
    i + n = l.length → r.alloc ≤ 2 ^ 30 → r.free = some f →
      unrefLoop n i r = .ok { r with freed := r.freed ++ (l.drop i).map (f, ·) } := by
  induction n with
  | zero =>
    intro r l i hv hn _ _
    have : l.drop i = [] := List.drop_eq_nil_of_le (by omega)
    simp [unrefLoop, this]
  | succ n ih =>
    intro r l i hv hn h1 hf
    have hv' := hv
    rcases hv with ⟨rfl, _⟩ | ⟨_, h2, h3, h4, h5⟩
    · simp at hn
    simp only [unrefLoop, bind, Except.bind]
    rw [chk32_ok (by omega) (by omega)]
    simp only []
    rw [cMod_ok (by omega) (by omega)]
    simp only []
    rw [slot_ok (by split <;> omega) (h5 i (by omega))]
    simp only []
    rw [callFree_some hf]
    have := ih { r with freed := r.freed ++ [(f, l[i]'(by omega))] } l (i + 1)
      (hv'.congr rfl rfl rfl rfl) (by omega) h1 hf
    rw [show ((i : Int) + 1) = ((i + 1 : Nat) : Int) by omega, this]
    rw [List.drop_eq_getElem_cons (i := i) (l := l) (by omega)]
    simp only [List.map_cons, List.append_assoc, List.cons_append, List.nil_append]

/-- Everything up to the end, when it's in one piece. -/
theorem slots_linear {r : Ring} {l : List Ptr} (h : View r l) (hlt : r.start < r.fin) :
    slots r.data r.start (r.fin - r.start) = .ok (l.map some) ∧ (l.length : Int) = r.fin - r.start := by
  rcases h with ⟨_, h1, h2⟩ | ⟨hne, h2, h3, h4, h5⟩
  · omega
  have hl : (l.length : Int) = r.fin - r.start := by omega
  have hpos : 0 < l.length := by
    cases l with
    | nil => exact (hne rfl).elim
    | cons => simp
  have hlast := h5 (l.length - 1) (by omega)
  obtain ⟨hlt', _⟩ := List.getElem?_eq_some_iff.1 hlast
  have hi : idx r.start r.alloc (l.length - 1) = (r.start + (l.length - 1 : Nat)).toNat := by
    rw [idx, if_pos (by omega)]
  rw [hi] at hlt'
  refine ⟨?_, hl⟩
  rw [slots, if_pos ⟨h2, by omega, by omega⟩]
  congr 1
  apply List.ext_getElem?
  intro i
  rw [← hl, Int.toNat_natCast, List.getElem?_take, List.getElem?_map]
  by_cases hi : i < l.length
  · rw [if_pos hi, List.getElem?_drop, List.getElem?_eq_getElem hi]
    have := h5 i hi
    rw [idx, if_pos (by omega)] at this
    rw [show r.start.toNat + i = (r.start + i).toNat by omega, this]
    rfl
  · rw [if_neg hi, List.getElem?_eq_none (by omega)]
    rfl

/-- The two pieces, when it isn't. -/
theorem slots_wrapped {r : Ring} {l : List Ptr} (h : View r l) (hne : l ≠ []) (hlt : ¬ r.start < r.fin) :
    ∃ a b, slots r.data r.start (r.alloc - r.start) = .ok a ∧ slots r.data 0 r.fin = .ok b ∧
      a ++ b = l.map some ∧ r.alloc ≤ r.data.length := by
  rcases h with ⟨rfl, _⟩ | ⟨_, h2, h3, h4, h5⟩
  · exact (hne rfl).elim
  have hl : 0 ≤ r.fin ∧ (l.length : Int) = r.alloc + r.fin - r.start := by omega
  have hlast := h5 (r.alloc - r.start - 1).toNat (by omega)
  obtain ⟨hlt', _⟩ := List.getElem?_eq_some_iff.1 hlast
  have hi : idx r.start r.alloc (r.alloc - r.start - 1).toNat = (r.alloc - 1).toNat := by
    rw [idx, if_pos (by omega)]; congr 1; omega
  rw [hi] at hlt'
  refine ⟨_, _, by rw [slots, if_pos ⟨h2, by omega, by omega⟩],
    by rw [slots, if_pos ⟨by omega, hl.1, by omega⟩], ?_, by omega⟩
  apply List.ext_getElem?
  intro i
  have hlen1 : ((r.data.drop r.start.toNat).take (r.alloc - r.start).toNat).length =
      (r.alloc - r.start).toNat := by
    rw [List.length_take, List.length_drop]; omega
  rw [List.getElem?_map]
  by_cases hi : i < l.length
  · rw [List.getElem?_eq_getElem hi]
    have := h5 i hi
    by_cases hi2 : i < (r.alloc - r.start).toNat
    · rw [List.getElem?_append_left (by omega), List.getElem?_take, if_pos hi2, List.getElem?_drop]
      rw [idx, if_pos (by omega)] at this
      rw [show r.start.toNat + i = (r.start + i).toNat by omega, this]
      rfl
    · rw [List.getElem?_append_right (by omega), hlen1, List.getElem?_take,
        if_pos (by omega), List.getElem?_drop]
      rw [idx, if_neg (by omega)] at this
      rw [show (0 : Int).toNat + (i - (r.alloc - r.start).toNat) = (r.start + i - r.alloc).toNat by omega, this]
      rfl
  · rw [List.getElem?_append_right (by omega), hlen1, List.getElem?_eq_none,
      List.getElem?_eq_none (l := l) (by omega)]
    · rfl
    · rw [List.length_take]; omega

theorem newBlock_ok {n : Int} {c : List (Option Ptr)} (h : (c.length : Int) ≤ n) :
    newBlock n c = .ok (c ++ List.replicate (n.toNat - c.length) none) := by
  rw [newBlock, if_neg (by omega), if_pos (by omega)]

/-- A fresh block with the elements at the beginning. -/
theorem view_fresh {r : Ring} {l : List Ptr} {n : Int} (hne : l ≠ []) (h : (l.length : Int) ≤ n)
    (hd : r.data = l.map some ++ List.replicate (n.toNat - (l.map some).length) none)
    (ha : r.alloc = n) (hs : r.start = 0)
    (he : (r.fin = l.length ∧ (l.length : Int) < n) ∨ (r.fin = 0 ∧ n = l.length)) : View r l := by
  have hpos : 0 < l.length := by
    cases l with
    | nil => exact (hne rfl).elim
    | cons => simp
  refine .inr ⟨hne, by omega, by omega, by omega, ?_⟩
  intro i hi
  have hidx : idx r.start r.alloc i = i := by
    rw [idx, hs, ha, if_pos (by omega)]; omega
  rw [hidx, hd, List.getElem?_append_left (by simpa using hi), List.getElem?_map,
    List.getElem?_eq_getElem hi]
  rfl

/-- What compact, reserve and flatten may change. -/
def rebuilt (r : Ring) (data : List (Option Ptr)) (alloc s e : Int) (k : Nat) : Ring :=
  { r with data := data, alloc := alloc, start := s, fin := e, allocs := k }

theorem compact_spec {r : Ring} {l : List Ptr} (hv : View r l) (h0 : 0 ≤ r.alloc)
    (h1 : r.alloc ≤ 2 ^ 30) (hlen : (r.data.length : Int) ≤ r.alloc) :
    ∃ data s e k, compact r = .ok (rebuilt r data l.length s e k) ∧
      View (rebuilt r data l.length s e k) l ∧ data.length = l.length := by
  simp only [compact, size_spec hv h0 h1, bind, Except.bind]
  have hle := hv.length_le h0
  by_cases ha : r.alloc > l.length
  · simp only [ha, if_true]
    by_cases hl : (l.length : Int) > 0
    · simp only [hl, if_true]
      have hne : l ≠ [] := by rintro rfl; simp at hl
      have hblk : newBlock (l.length : Int) (l.map some) =
          .ok (l.map some ++ List.replicate ((l.length : Int).toNat - (l.map some).length) none) :=
        newBlock_ok (by simp)
      by_cases hlt : r.start < r.fin
      · obtain ⟨hs, hl2⟩ := slots_linear hv hlt
        simp only [hlt, if_true, hl2, hs]
        rw [← hl2, hblk]
        refine ⟨_, 0, 0, r.allocs + 1, rfl, view_fresh (n := (l.length : Int)) hne (by simp) rfl rfl rfl
          (.inr ⟨rfl, rfl⟩), by simp⟩
      · obtain ⟨a, b, ha', hb', hab, _⟩ := slots_wrapped hv hne hlt
        have hst : 0 ≤ r.start ∧ r.start < r.alloc := by
          rcases hv with ⟨h, _⟩ | ⟨_, h, h', _⟩
          · exact (hne h).elim
          · exact ⟨h, h'⟩
        simp only [hlt, if_false]
        rw [chk32_ok (by omega) (by omega)]
        simp only [ha', hb', hab, hblk]
        refine ⟨_, 0, 0, r.allocs + 1, rfl, view_fresh (n := (l.length : Int)) hne (by simp) rfl rfl rfl
          (.inr ⟨rfl, rfl⟩), by simp⟩
    · have hnil : l = [] := List.length_eq_zero_iff.1 (by omega)
      subst hnil
      simp only [List.length_nil, Int.natCast_zero, gt_iff_lt, Int.lt_irrefl, if_false]
      refine ⟨[], r.start, r.fin, r.allocs, rfl, ?_, rfl⟩
      rcases hv with ⟨_, h2, h3⟩ | ⟨h, _⟩
      · exact .inl ⟨rfl, h2, h3⟩
      · exact (h rfl).elim
  · simp only [ha, if_false]
    have hal : r.alloc = l.length := by omega
    refine ⟨r.data, r.start, r.fin, r.allocs, by simp [rebuilt, ← hal], ?_, ?_⟩
    · refine hv.congr ?_ rfl rfl rfl
      simp [rebuilt, hal]
    · by_cases hne : l = []
      · subst hne; simp at hal ⊢
        have : r.data.length = 0 := by omega
        exact List.length_eq_zero_iff.1 this
      · by_cases hlt : r.start < r.fin
        · rcases hv with ⟨h, _⟩ | ⟨_, h2, h3, h4, h5⟩
          · exact (hne h).elim
          · have hpos : 0 < l.length := by
              cases l with
              | nil => exact (hne rfl).elim
              | cons => simp
            obtain ⟨hlt', _⟩ := List.getElem?_eq_some_iff.1 (h5 (l.length - 1) (by omega))
            rw [idx, if_pos (by omega)] at hlt'
            omega
        · obtain ⟨_, _, _, _, _, h⟩ := slots_wrapped hv hne hlt
          omega

/-- The capacity after making room for `n` elements, if there's not enough room. -/
def grown (r : Ring) (n : Int) : Int :=
  if r.maxsiz > 0 ∧ max n (r.alloc * 2) > r.maxsiz then r.maxsiz else max n (r.alloc * 2)

/-- It's not too much, and neither is twice the current one. -/
def Fit (r : Ring) (n : Int) : Prop :=
  r.alloc < n → (r.maxsiz < 0 ∨ r.alloc < r.maxsiz) → r.alloc < 2 ^ 30 ∧ grown r n ≤ 2 ^ 30

theorem fit_small {r : Ring} {n : Int} (hn : n ≤ 2 ^ 29) : Fit r n := by
  intro h1 h2
  refine ⟨by omega, ?_⟩
  unfold grown
  split <;> omega

theorem reserve_spec {r : Ring} {l : List Ptr} (hv : View r l) (h0 : 0 ≤ r.alloc)
    (h1 : r.alloc ≤ 2 ^ 30) (n : Int) (hn : Fit r n)
    (hlen : (r.data.length : Int) ≤ r.alloc) :
    (n ≤ r.alloc ∧ reserve r n = .ok (true, r)) ∨
    (r.alloc < n ∧ 0 ≤ r.maxsiz ∧ r.maxsiz ≤ r.alloc ∧ reserve r n = .ok (false, r)) ∨
    (r.alloc < n ∧ (r.maxsiz < 0 ∨ r.alloc < r.maxsiz) ∧ ∃ data alloc s e,
      reserve r n = .ok (true, rebuilt r data alloc s e (r.allocs + 1)) ∧
      View (rebuilt r data alloc s e (r.allocs + 1)) l ∧ (data.length : Int) = alloc ∧
      r.alloc < alloc ∧ alloc ≤ 2 ^ 30 ∧ (r.maxsiz < 0 ∨ alloc ≤ r.maxsiz) ∧
      (n ≤ alloc ∨ alloc = r.maxsiz) ∧ alloc = grown r n) := by
  by_cases hc : n ≤ r.alloc
  · left; exact ⟨hc, by simp [reserve, hc]⟩
  by_cases hm : r.maxsiz ≥ 0 ∧ r.alloc ≥ r.maxsiz
  · right; left; refine ⟨by omega, by omega, by omega, by simp only [reserve, hc, hm, if_false, if_true, and_self]⟩
  right; right
  refine ⟨by omega, by omega, ?_⟩
  obtain ⟨hn1, hn2⟩ := hn (by omega) (by omega)
  unfold grown at hn2 ⊢
  simp only [reserve, hc, hm, if_false, bind, Except.bind]
  rw [chk32_ok (by omega) (by omega)]
  simp only []
  generalize hmm : (if r.maxsiz > 0 ∧ max n (r.alloc * 2) > r.maxsiz then r.maxsiz else max n (r.alloc * 2)) = m at hn2 ⊢
  have hmax : r.alloc < max n (r.alloc * 2) ∧ n ≤ max n (r.alloc * 2) := by
    omega
  have hm1 : r.alloc < m ∧ m ≤ 2 ^ 30 ∧ (r.maxsiz < 0 ∨ m ≤ r.maxsiz) ∧ (n ≤ m ∨ m = r.maxsiz) ∧ m = m := by
    split at hmm <;> omega
  have hle := hv.length_le h0
  have hblk : newBlock m (l.map some) =
      .ok (l.map some ++ List.replicate (m.toNat - (l.map some).length) none) :=
    newBlock_ok (by simp; omega)
  by_cases hne : l = []
  · subst hne
    rcases hv with ⟨_, h2, h3⟩ | ⟨h, _⟩
    · have h4 : ¬ r.start < r.fin := by omega
      have h5 : ¬ r.start ≥ 0 := by omega
      have hb : newBlock m [] = .ok (List.replicate m.toNat none) := by
        have := newBlock_ok (n := m) (c := []) (by simp; omega)
        simpa using this
      simp only [h4, h5, if_false, hb]
      refine ⟨_, m, r.start, r.fin, rfl, .inl ⟨rfl, h2, h3⟩, by simp; omega, hm1⟩
    · exact (h rfl).elim
  · by_cases hlt : r.start < r.fin
    · obtain ⟨hs, hl2⟩ := slots_linear hv hlt
      simp only [hlt, if_true]
      rw [chk32_ok (by omega) (by omega)]
      simp only [hs, hblk]
      exact ⟨_, m, 0, _, rfl, view_fresh (n := m) hne (by omega) rfl rfl rfl (.inl ⟨hl2.symm, by omega⟩),
        by simp; omega, hm1⟩
    · obtain ⟨a, b, ha', hb', hab, _⟩ := slots_wrapped hv hne hlt
      have hst : 0 ≤ r.start ∧ (l.length : Int) = r.alloc + r.fin - r.start ∧ r.start < r.alloc := by
        rcases hv with ⟨h, _⟩ | ⟨_, h, _, h', _⟩
        · exact (hne h).elim
        · omega
      simp only [hlt, if_false, ge_iff_le, hst.1, if_true]
      rw [chk32_ok (by omega) (by omega)]
      simp only [ha', hb', hab, hblk]
      refine ⟨_, m, 0, _, rfl, view_fresh (n := m) hne (by omega) rfl rfl rfl (.inl ⟨?_, by omega⟩),
        by simp; omega, hm1⟩
      show r.fin + (r.alloc - r.start) = l.length
      omega

/-- Storing after the newest element, given room for it. -/
theorem view_snoc_at {r : Ring} {l : List Ptr} (hv : View r l) (p : Ptr)
    (hroom : (l.length : Int) < r.alloc) (hlen : (if r.start < 0 then 0 else r.fin) < r.data.length) :
    ∃ s f : Int, (s, f) = (if r.start < 0 then (0, 0) else (r.start, r.fin)) ∧ 0 ≤ f ∧ f < r.alloc ∧
      View { r with start := s, fin := if f + 1 < r.alloc then f + 1 else 0,
                    data := r.data.set f.toNat (some p) } (l ++ [p]) := by
  rcases hv with ⟨rfl, h2, h3⟩ | ⟨hne, h2, h3, h4, h5⟩
  · simp only [List.length_nil] at hroom
    refine ⟨0, 0, by simp [h2], by omega, by omega, .inr ⟨by simp, by simp, by simp only; omega, ?_, ?_⟩⟩
    · simp only [List.nil_append, List.length_cons, List.length_nil]
      split <;> omega
    · intro i hi
      simp only [List.nil_append, List.length_cons, List.length_nil] at hi
      have : i = 0 := by omega
      subst this
      have : idx 0 r.alloc 0 = 0 := by rw [idx]; split <;> omega
      simp only [this]
      rw [Int.toNat_zero, List.getElem?_set_self (by omega)]
      rfl
  · have hs : ¬ r.start < 0 := by omega
    refine ⟨r.start, r.fin, by simp [hs], by omega, by omega, .inr ⟨by simp, h2, h3, ?_, ?_⟩⟩
    · simp only [List.length_append, List.length_cons, List.length_nil]
      split <;> omega
    · intro i hi
      simp only [List.length_append, List.length_cons, List.length_nil] at hi
      by_cases hil : i < l.length
      · rw [List.getElem_append_left hil, ← h5 i hil]
        simp only
        rw [List.getElem?_set_ne]
        have := idx_nat (i := i) h2 h3 (by omega)
        split at this <;> omega
      · have hil' : i = l.length := by omega
        subst hil'
        rw [List.getElem_append_right (Nat.le_refl _)]
        have : idx r.start r.alloc l.length = r.fin.toNat := by
          rw [idx]; split <;> omega
        simp only [this]
        rw [List.getElem?_set_self (by omega)]
        simp

theorem view_snoc {r : Ring} {l : List Ptr} (hv : View r l) (p : Ptr)
    (hroom : (l.length : Int) < r.alloc) (hlen : (r.data.length : Int) = r.alloc) :
    ∃ s f : Int, (s, f) = (if r.start < 0 then (0, 0) else (r.start, r.fin)) ∧ 0 ≤ f ∧ f < r.alloc ∧
      View { r with start := s, fin := if f + 1 < r.alloc then f + 1 else 0,
                    data := r.data.set f.toNat (some p) } (l ++ [p]) := by
  refine view_snoc_at hv p hroom ?_
  rcases hv with ⟨rfl, h2, h3⟩ | ⟨hne, h2, h3, h4, h5⟩ <;> split <;> (try simp only [List.length_nil] at hroom) <;> omega

/-- Storing before the oldest element, given room for it. -/
theorem view_cons_at {r : Ring} {l : List Ptr} (hv : View r l) (p : Ptr)
    (hroom : (l.length : Int) < r.alloc)
    (hlen : (if r.start ≥ 0 then (if r.start = 0 then r.alloc - 1 else r.start - 1) else 0) < r.data.length) :
    ∃ s f : Int, (s, f) = (if r.start ≥ 0 then (if r.start = 0 then r.alloc - 1 else r.start - 1, r.fin)
        else (0, 1)) ∧ 0 ≤ s ∧ s < r.alloc ∧ (r.start ≥ 0 → r.start < r.alloc) ∧
      View { r with start := s, fin := f, data := r.data.set s.toNat (some p) } (p :: l) := by
  rcases hv with ⟨rfl, h2, h3⟩ | ⟨hne, h2, h3, h4, h5⟩
  · simp only [List.length_nil] at hroom
    refine ⟨0, 1, by simp [h2], by omega, by omega, by omega, .inr ⟨by simp, by simp, by simp only; omega, ?_, ?_⟩⟩
    · simp only [List.length_cons, List.length_nil]; omega
    · intro i hi
      simp only [List.length_cons, List.length_nil] at hi
      have : i = 0 := by omega
      subst this
      have : idx 0 r.alloc 0 = 0 := by rw [idx]; split <;> omega
      simp only [this]
      rw [Int.toNat_zero, List.getElem?_set_self (by omega)]
      rfl
  · have hs : r.start ≥ 0 := h2
    refine ⟨_, r.fin, by rw [if_pos hs], by split <;> omega, by split <;> omega, fun _ => h3,
      .inr ⟨by simp, by simp only; split <;> omega, by simp only; split <;> omega, ?_, ?_⟩⟩
    · simp only [List.length_cons]; split <;> omega
    · intro i hi
      simp only [List.length_cons] at hi
      have hsn : 0 ≤ (if r.start = 0 then r.alloc - 1 else r.start - 1) ∧
          (if r.start = 0 then r.alloc - 1 else r.start - 1) < r.alloc := by split <;> omega
      cases i with
      | zero =>
        have : idx (if r.start = 0 then r.alloc - 1 else r.start - 1) r.alloc 0 =
            (if r.start = 0 then r.alloc - 1 else r.start - 1).toNat := by
          rw [idx, if_pos (by simpa using hsn.2)]; simp
        simp only [this]
        rw [List.getElem?_set_self (by omega)]
        simp
      | succ i =>
        have hi' : i < l.length := by omega
        rw [List.getElem_cons_succ, ← h5 i hi']
        have : idx (if r.start = 0 then r.alloc - 1 else r.start - 1) r.alloc (i + 1) =
            idx r.start r.alloc i := by
          simp only [idx]
          congr 1
          split <;> split <;> split <;> omega
        simp only [this]
        rw [List.getElem?_set_ne]
        have := idx_nat (i := i) h2 h3 (by omega)
        split at this <;> split <;> omega

theorem view_cons {r : Ring} {l : List Ptr} (hv : View r l) (p : Ptr)
    (hroom : (l.length : Int) < r.alloc) (hlen : (r.data.length : Int) = r.alloc) :
    ∃ s f : Int, (s, f) = (if r.start ≥ 0 then (if r.start = 0 then r.alloc - 1 else r.start - 1, r.fin)
        else (0, 1)) ∧ 0 ≤ s ∧ s < r.alloc ∧ (r.start ≥ 0 → r.start < r.alloc) ∧
      View { r with start := s, fin := f, data := r.data.set s.toNat (some p) } (p :: l) := by
  refine view_cons_at hv p hroom ?_
  rcases hv with ⟨rfl, h2, h3⟩ | ⟨hne, h2, h3, h4, h5⟩ <;> split <;> (try split) <;> (try simp only [List.length_nil] at *) <;> omega


theorem readBlock_spec {data : List (Option Ptr)} (l : List Ptr) : ∀ (off : Int), 0 ≤ off →
    (∀ i, (h : i < l.length) → data[(off + i).toNat]? = some (some l[i])) →
    readBlock data off l.length = .ok l := by
  induction l with
  | nil => intro off _ _; rfl
  | cons x t ih =>
    intro off h0 h
    have hx := h 0 (by simp)
    simp only [Int.natCast_zero, Int.add_zero, List.getElem_cons_zero] at hx
    simp only [List.length_cons, readBlock, rd_ok h0 hx, bind, Except.bind]
    rw [ih (off + 1) (by omega)]
    intro i hi
    have := h (i + 1) (by simpa using hi)
    rw [List.getElem_cons_succ] at this
    rw [← this]
    congr 2
    omega

theorem flatten_nil {r : Ring} (hv : View r []) (h0 : 0 ≤ r.alloc) (h1 : r.alloc ≤ 2 ^ 30) :
    flatten r = .ok (none, 0, r) := by
  simp [flatten, size_spec hv h0 h1, bind, Except.bind]

theorem flatten_spec {r : Ring} {l : List Ptr} (hv : View r l) (hne : l ≠ []) (h0 : 0 ≤ r.alloc)
    (h1 : r.alloc ≤ 2 ^ 30) (hlen : (r.data.length : Int) ≤ r.alloc) :
    ∃ data s e k, flatten r = .ok (some s, l.length, rebuilt r data r.alloc s e k) ∧
      View (rebuilt r data r.alloc s e k) l ∧ (data.length : Int) ≤ r.alloc ∧
      readBlock data s l.length = .ok l ∧ (data.length = l.length ∨ data = r.data) := by
  have hpos : 0 < l.length := by
    cases l with
    | nil => exact (hne rfl).elim
    | cons => simp
  have hle := hv.length_le h0
  simp only [flatten, size_spec hv h0 h1, bind, Except.bind]
  rw [if_pos (show (l.length : Int) > 0 by omega)]
  by_cases hc : r.start > 0 ∧ r.start ≥ r.fin
  · rw [if_pos hc]
    obtain ⟨a, b, ha', hb', hab, _⟩ := slots_wrapped hv hne (by omega)
    have hst : 0 ≤ r.fin ∧ r.start < r.alloc := by
      rcases hv with ⟨h, _⟩ | ⟨_, h, _, h', _⟩
      · exact (hne h).elim
      · omega
    have hblk : newBlock (l.length : Int) (l.map some) =
          .ok (l.map some ++ List.replicate ((l.length : Int).toNat - (l.map some).length) none) :=
        newBlock_ok (by simp)
    rw [chk32_ok (by omega) (by omega)]
    simp only [ha', hb', hab, hblk]
    rw [cMod_ok (by omega) (by omega)]
    simp only [pure, Except.pure]
    have hd : l.map some ++ List.replicate ((l.length : Int).toNat - (l.map some).length) none = l.map some := by
      simp
    refine ⟨_, 0, _, _, rfl, ?_, by rw [hd, List.length_map]; omega, ?_, .inl (by rw [hd, List.length_map])⟩
    · refine .inr ⟨hne, by simp [rebuilt], by simp only [rebuilt]; omega, ?_, ?_⟩
      · simp only [rebuilt]; split <;> omega
      · intro i hi
        have hidx : idx 0 r.alloc i = i := by
          rw [idx, if_pos (by omega)]; omega
        simp only [rebuilt, hidx, hd, List.getElem?_map, List.getElem?_eq_getElem hi]
        rfl
    · apply readBlock_spec l 0 (by omega)
      intro i hi
      rw [hd, show ((0 : Int) + i).toNat = i by omega, List.getElem?_map, List.getElem?_eq_getElem hi]
      rfl
  · rw [if_neg hc]
    refine ⟨r.data, r.start, r.fin, r.allocs, rfl, hv, hlen, ?_, .inr rfl⟩
    rcases hv with ⟨h, _⟩ | ⟨_, h2, h3, h4, h5⟩
    · exact (hne h).elim
    · apply readBlock_spec l _ h2
      intro i hi
      have := h5 i hi
      rwa [idx, if_pos (by omega)] at this

end Verif.Ring
