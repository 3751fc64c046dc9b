import Verif.Model.RingDebug
import Verif.Proof.RingSim

namespace Verif.Ring.Debug
open Verif.C Spec

theorem gassert_ok {c : Prop} [Decidable c] (h : c) : gassert c = .ok () := if_pos h

/-- If something has been allocated then it's not `NULL`. -/
def Nz (r : Ring) : Prop := 0 < r.alloc → r.data ≠ []

theorem size_eq {r : Ring} {l : List Ptr} (h : View r l) : size r = Ring.size r := by
  unfold size Ring.size
  rcases h with ⟨rfl, hs, _⟩ | ⟨_, h2, h3, h4, _⟩
  · rw [if_neg (by omega), if_neg (by omega)]
  · rw [if_pos h2, if_pos h2]
    by_cases hc : r.start > r.fin
    · rw [if_pos hc, if_pos hc]
    · by_cases hd : r.fin > r.start
      · rw [if_neg hc, if_neg hc, if_pos hd, if_pos hd]
      · rw [if_neg hc, if_neg hc, if_neg hd, if_neg hd, gassert_ok (by omega), ok_bind, gassert_ok (by omega), ok_bind]

theorem size_ok {r : Ring} {l : List Ptr} (h : View r l) (h0 : 0 ≤ r.alloc) (h1 : r.alloc ≤ 2 ^ 30) :
    size r = .ok (l.length : Int) := by rw [size_eq h, size_spec h h0 h1]

theorem clearLoop_eq {f : Nat} (l : List Ptr) : ∀ (r : Ring), View r l → 0 ≤ r.alloc → r.alloc ≤ 2 ^ 30 → r.free = some f →
    clearLoop l.length r = Ring.clearLoop l.length r := by
  induction l with
  | nil => intros; rfl
  | cons x t ih =>
    intro r hv h0 h1 hf
    obtain ⟨s, e, hg, hv'⟩ := get_cons hv h1
    simp only [List.length_cons, clearLoop, Ring.clearLoop, hg, bind, Except.bind]
    rw [callFree_some (r := { r with start := s, fin := e }) hf x]
    have hv2 : View (moved r s e (r.freed ++ [(f, x)])) t := hv'.congr rfl rfl rfl rfl
    have hs := size_eq hv2
    simp only [moved] at hs
    rw [hs]
    have := ih _ hv2 h0 h1 hf
    simp only [moved] at this
    rw [this]

theorem clear_eq {r : Ring} {l : List Ptr} (hv : View r l) (h0 : 0 ≤ r.alloc) (h1 : r.alloc ≤ 2 ^ 30) : clear r = Ring.clear r := by
  unfold clear Ring.clear
  rw [size_ok hv h0 h1, size_spec hv h0 h1, ok_bind, ok_bind]
  cases hf : r.free with
  | none => rfl
  | some f =>
    simp only [Int.toNat_natCast, clearLoop_eq l r hv h0 h1 hf]

/-- The ring isn't full and isn't empty. -/
theorem ends_ne {r : Ring} {l : List Ptr} (hv : View r l) (hne : l ≠ []) (hl : (l.length : Int) < r.alloc) : r.start ≠ r.fin := by
  rcases hv with ⟨h, _⟩ | ⟨_, h2, h3, h4, _⟩
  · exact absurd h hne
  · omega

theorem dropLoop_eq {f : Nat} (n : Nat) : ∀ (r : Ring) (l : List Ptr), View r l → n < l.length → 0 ≤ r.alloc → r.alloc ≤ 2 ^ 30 → r.free = some f →
    dropLoop n r = Ring.dropLoop n r := by
  induction n with
  | zero => intros; rfl
  | succ n ih =>
    intro r l hv hn h0 h1 hf
    have hle := hv.length_le h0
    cases l with
    | nil => simp at hn
    | cons x t =>
      obtain ⟨h2, h3, h4⟩ := view_front hv 1 (by simp only [List.length_cons] at hn ⊢; omega)
      have hx : 0 ≤ r.start ∧ r.start < r.alloc ∧ r.data[r.start.toNat]? = some (some x) := by
        rcases hv with ⟨h, _⟩ | ⟨_, g2, g3, _, g5⟩
        · cases h
        · refine ⟨g2, g3, ?_⟩
          have := g5 0 (by simp)
          simpa [idx, g3] using this
      simp only [dropLoop, Ring.dropLoop, slot_ok hx.1 hx.2.2, bind, Except.bind]
      rw [callFree_some hf]
      simp only []
      rw [chk32_ok (by omega) (by omega)]
      simp only []
      rw [cMod_ok (by omega) (by omega)]
      simp only [Int.natCast_one, List.drop_succ_cons, List.drop_zero, List.length_cons] at h4 hn hle ⊢
      have hne := ends_ne h4 (by rintro rfl; simp at hn) (by dsimp only; omega)
      rw [gassert_ok hne]
      have hv2 : View (moved r (if r.start + 1 < r.alloc then r.start + 1 else r.start + 1 - r.alloc)
        r.fin (r.freed ++ [(f, x)])) t := h4.congr rfl rfl rfl rfl
      exact ih _ t hv2 (by omega) h0 h1 hf

theorem drop_eq {r : Ring} {l : List Ptr} (hv : View r l) (h0 : 0 ≤ r.alloc) (h1 : r.alloc ≤ 2 ^ 30) (n : Int) : drop r n = Ring.drop r n := by
  unfold drop Ring.drop
  rw [size_ok hv h0 h1, size_spec hv h0 h1, ok_bind, ok_bind, clear_eq hv h0 h1]
  split
  · split
    · split
      · rfl
      · rename_i hn hs hlt
        have hle := hv.length_le h0
        cases hf : r.free with
        | some f => simp only [Option.isSome_some, if_true, dropLoop_eq n.toNat r l hv (by omega) h0 h1 hf]
        | none =>
          obtain ⟨h2, h3, h4⟩ := view_front hv n.toNat (by omega)
          have hp : ((n.toNat : Nat) : Int) = n := by omega
          rw [hp] at h2 h3 h4
          have ha : 0 < r.alloc := by omega
          simp only [Option.isSome_none, Bool.false_eq_true, if_false]
          rw [chk32_ok (by omega) (by omega), ok_bind, ok_bind, cMod_ok (by omega) (by omega), ok_bind, ok_bind]
          have hne := ends_ne h4 (by
            intro e
            have := congrArg List.length e
            simp at this
            omega) (by simp only [List.length_drop]; omega)
          rw [gassert_ok hne, ok_bind]
    · rfl
  · rfl

theorem dropLastLoop_eq {f : Nat} (n : Nat) : ∀ (r : Ring) (l : List Ptr), View r l → n < l.length → 0 ≤ r.alloc → r.alloc ≤ 2 ^ 30 → r.free = some f →
    dropLastLoop n r = Ring.dropLastLoop n r := by
  induction n with
  | zero => intros; rfl
  | succ n ih =>
    intro r l hv hn h0 h1 hf
    have hle := hv.length_le h0
    have hne : l ≠ [] := by rintro rfl; simp at hn
    obtain ⟨t, x, rfl⟩ : ∃ t x, l = t ++ [x] := ⟨l.dropLast, l.getLast hne, (List.dropLast_concat_getLast hne).symm⟩
    obtain ⟨e, he, he0, he1, hx, _, hcons⟩ := view_back hv
    simp only [List.length_append, List.length_cons, List.length_nil] at hn hle
    have hr : 0 ≤ r.start ∧ 0 ≤ r.fin ∧ r.fin ≤ r.alloc ∧ (r.fin < r.alloc ∨ r.alloc = 1) := by
      rcases hv with ⟨h, _⟩ | ⟨_, g2, g3, g4, _⟩
      · simp at h
      · omega
    have htne : t ≠ [] := by rintro rfl; simp at hn
    have hv2 := (hcons htne).2
    simp only [dropLastLoop, Ring.dropLastLoop, bind, Except.bind]
    rw [chk32_ok (by omega) (by omega)]
    simp only []
    rw [cMod_ok (by omega) (by omega)]
    have hee : (if r.fin + r.alloc - 1 < r.alloc then r.fin + r.alloc - 1
        else r.fin + r.alloc - 1 - r.alloc) = e := by
      rw [he]; split <;> split <;> omega
    simp only [hee]
    rw [slot_ok (r := { r with fin := e }) he0 hx]
    simp only []
    rw [callFree_some (r := { r with fin := e }) hf x]
    have hv3 : View (moved r r.start e (r.freed ++ [(f, x)])) t := hv2.congr rfl rfl rfl rfl
    have hne2 := ends_ne hv3 htne (by show (t.length : Int) < r.alloc; omega)
    simp only [moved] at hne2
    rw [gassert_ok hne2]
    exact ih _ t hv3 (by omega) h0 h1 hf

theorem dropLast_eq {r : Ring} {l : List Ptr} (hv : View r l) (h0 : 0 ≤ r.alloc) (h1 : r.alloc ≤ 2 ^ 30) (n : Int) : dropLast r n = Ring.dropLast r n := by
  unfold dropLast Ring.dropLast
  rw [size_ok hv h0 h1, size_spec hv h0 h1, ok_bind, ok_bind, clear_eq hv h0 h1]
  split
  · split
    · split
      · rfl
      · rename_i hn hs hlt
        have hle := hv.length_le h0
        cases hf : r.free with
        | some f => simp only [Option.isSome_some, if_true, dropLastLoop_eq n.toNat r l hv (by omega) h0 h1 hf]
        | none =>
          obtain ⟨h4, h2, h3⟩ := view_back_n hv n.toNat (by omega) (by omega)
          have hp : ((n.toNat : Nat) : Int) = n := by omega
          rw [hp] at h4
          have ha : 0 < r.alloc := by omega
          have hr : r.fin < r.alloc ∨ r.alloc = 1 := by
            rcases hv with ⟨rfl, _⟩ | ⟨_, g2, g3, g4, _⟩
            · simp at hs
            · omega
          simp only [Option.isSome_none, Bool.false_eq_true, if_false]
          rw [chk32_ok (by omega) (by omega), ok_bind, ok_bind, cMod_ok (by omega) (by omega), ok_bind, ok_bind]
          have hne := ends_ne h4 (by
            intro e
            have := congrArg List.length e
            simp only [List.length_take, List.length_nil] at this
            omega) (by simp only [List.length_take]; omega)
          rw [gassert_ok (by
            intro e
            apply hne
            dsimp only
            rw [e]
            split <;> split <;> omega), ok_bind]
    · rfl
  · rfl

theorem setMaxSize_eq {r : Ring} {l : List Ptr} (hv : View r l) (h0 : 0 ≤ r.alloc) (h1 : r.alloc ≤ 2 ^ 30) (n : Int) :
    setMaxSize r n = Ring.setMaxSize r n := by
  unfold setMaxSize Ring.setMaxSize
  simp only [size_eq hv, drop_eq hv h0 h1]

theorem unref_eq {r : Ring} {l : List Ptr} (hv : View r l) (hp : 0 < r.refCount) : unref r = Ring.unref r := by
  unfold unref Ring.unref
  rw [gassert_ok hp, ok_bind, size_eq hv]

theorem compact_eq {r : Ring} {l : List Ptr} (hv : View r l) (h0 : 0 ≤ r.alloc) (h1 : r.alloc ≤ 2 ^ 30) (hz : Nz r) : compact r = Ring.compact r := by
  unfold compact Ring.compact
  rw [size_ok hv h0 h1, size_spec hv h0 h1, ok_bind, ok_bind]
  split
  · rename_i ha
    split
    · rfl
    · rw [gassert_ok (hz (by omega)), ok_bind]
  · rfl

theorem reserve_eq {r : Ring} {l : List Ptr} (hv : View r l) (h0 : 0 ≤ r.alloc) (h1 : r.alloc ≤ 2 ^ 30) {n : Int} (hn : n ≤ 2 ^ 29) :
    reserve r n = Ring.reserve r n := by
  unfold reserve Ring.reserve
  split
  · rfl
  · split
    · rfl
    · rename_i hn hm
      rw [chk32_ok (by omega) (by omega), ok_bind, ok_bind]
      simp only []
      generalize hmm : (if r.maxsiz > 0 ∧ max n (r.alloc * 2) > r.maxsiz then r.maxsiz else max n (r.alloc * 2)) = m
      have hm1 : r.alloc < m := by split at hmm <;> omega
      split
      · rfl
      · split
        · rename_i hlt hs
          have hw : r.fin + (r.alloc - r.start) < m ∧ r.start < r.alloc := by
            rcases hv with ⟨_, h, _⟩ | ⟨_, h2, h3, h4, _⟩ <;> omega
          rw [chk32_ok (by omega) (by omega), ok_bind, ok_bind, gassert_ok hw.1]
          rfl
        · rfl

theorem canPut_eq {r : Ring} {l : List Ptr} (hv : View r l) (n : Int) : canPut r n = Ring.canPut r n := by
  unfold canPut Ring.canPut
  rw [size_eq hv]

theorem put_eq {r : Ring} {d : Deque} (h : Alive r d) (p : Ptr) (hlen : (d.items.length : Int) < 536870912) (hflat : d.flat = false) :
    put r p = Ring.put r p := by
  unfold put Ring.put
  rw [size_ok h.view h.alloc0 h.alloc1, size_spec h.view h.alloc0 h.alloc1, ok_bind, ok_bind, chk32_ok (by omega) (by omega), ok_bind, ok_bind,
    reserve_eq h.view h.alloc0 h.alloc1 (by omega)]
  obtain ⟨b, r1, h1, h2, h3, h4, h5⟩ := reserve_alive h ((d.items.length : Int) + 1) (by omega)
  rw [h1, ok_bind, ok_bind]
  cases b with
  | false => rfl
  | true =>
    have h6 := h5 rfl (by omega) (by omega)
    obtain ⟨s, f, hsf, hf0, hf1, _⟩ := view_snoc h2.view p (by omega) (h2.len' hflat)
    simp only [if_true]
    rw [gassert_ok, ok_bind]
    by_cases hs : r1.start < 0
    · rw [if_pos hs] at hsf ⊢
      cases hsf
      exact hf1
    · rw [if_neg hs] at hsf ⊢
      cases hsf
      exact hf1

theorem putFront_eq {r : Ring} {d : Deque} (h : Alive r d) (p : Ptr) (hlen : (d.items.length : Int) < 536870912) :
    putFront r p = Ring.putFront r p := by
  unfold putFront Ring.putFront
  rw [size_ok h.view h.alloc0 h.alloc1, size_spec h.view h.alloc0 h.alloc1, ok_bind, ok_bind, chk32_ok (by omega) (by omega), ok_bind, ok_bind,
    reserve_eq h.view h.alloc0 h.alloc1 (by omega)]

theorem exec_eq {r : Ring} {d : Deque} (h : Alive r d) (hz : Nz r) (op : Op) (hp : Pre d op) : exec r op = Ring.exec r op := by
  have hrc : ¬ r.refCount = 0 := by rw [h.ref]; have := h.pos; omega
  have hs := size_eq h.view
  unfold exec Ring.exec
  rw [if_neg hrc, if_neg hrc]
  obtain ⟨hpos, hp⟩ := hp
  cases op with
  | ref => simp only [gassert_ok (Nat.pos_of_ne_zero hrc), ok_bind]
  | unref => simp only [unref_eq h.view (Nat.pos_of_ne_zero hrc)]
  | setFreeFunc f => rfl
  | maxSize => rfl
  | setMaxSize n => simp only [setMaxSize_eq h.view h.alloc0 h.alloc1]
  | size => simp only [hs]
  | clear => simp only [clear_eq h.view h.alloc0 h.alloc1]
  | compact => simp only [compact_eq h.view h.alloc0 h.alloc1 hz]
  | reserve n => simp only [reserve_eq h.view h.alloc0 h.alloc1 hp]
  | canPut n => simp only [canPut_eq h.view]
  | put p => simp only [put_eq h p (by have := hp.1; omega) hp.2]
  | putFront p => simp only [putFront_eq h p (by have := hp.1; omega)]
  | get => rfl
  | getLast => rfl
  | drop n => simp only [drop_eq h.view h.alloc0 h.alloc1]
  | dropLast n => simp only [dropLast_eq h.view h.alloc0 h.alloc1]
  | dataAt i => simp only [dataAt, Ring.dataAt, hs]
  | flatten =>
    have : flatten r = Ring.flatten r := by unfold flatten Ring.flatten; rw [hs]
    rw [this]
    rfl

theorem nz_len {r : Ring} (h : (r.data.length : Int) = r.alloc) : Nz r := by
  intro ha e
  rw [e] at h
  simp at h
  omega

theorem nz_view {r : Ring} {l : List Ptr} (hv : View r l) (hne : l ≠ []) : Nz r := by
  intro _ e
  rcases hv with ⟨h, _⟩ | ⟨_, _, _, _, h5⟩
  · exact hne h
  · have := h5 0 (List.length_pos_iff.2 hne)
    rw [e] at this
    simp at this

/-- Both survive any call. -/
theorem exec_nz {r : Ring} {d : Deque} (h : Alive r d) (hz : Nz r) (op : Op) (hp : Pre d op) {o : Out} {r' : Ring} (e : Ring.exec r op = .ok (o, r')) : Nz r' := by
  have hrc : ¬ r.refCount = 0 := by rw [h.ref]; have := h.pos; omega
  unfold Ring.exec at e
  rw [if_neg hrc] at e
  obtain ⟨hpos, hp⟩ := hp
  have hsz := size_spec h.view h.alloc0 h.alloc1
  cases op with
  | ref => cases e; exact hz
  | setFreeFunc f => cases e; exact hz
  | maxSize => cases e; exact hz
  | unref =>
    simp only [Ring.unref, bind, Except.bind] at e
    split at e
    · cases e
    · cases e
      rename_i h1
      split at h1
      · cases hf : r.free with
        | none =>
          rw [hf] at h1
          cases h1
          exact hz
        | some f =>
          rw [hf] at h1
          simp only [Option.isSome_some, if_true, hsz, Int.toNat_natCast] at h1
          have := unrefLoop_spec d.items.length r d.items 0 h.view (by omega) h.alloc1 hf
          rw [Int.natCast_zero] at this
          rw [this] at h1
          cases h1
          exact hz
      · cases h1
        exact hz
  | setMaxSize n =>
    simp only [Ring.setMaxSize] at e
    generalize (if n < 0 then -1 else n) = m at e
    obtain ⟨s, f, h1, _⟩ := drop_spec h ((d.items.length : Int) - m)
    by_cases g1 : r.maxsiz ≠ m
    · rw [if_pos g1, hsz, ok_bind] at e
      by_cases g2 : m ≥ 0 ∧ (d.items.length : Int) > m
      · rw [if_pos g2, h1] at e
        cases e
        exact hz
      · rw [if_neg g2] at e
        cases e
        exact hz
    · rw [if_neg g1] at e
      cases e
      exact hz
  | size => simp only [hsz, ok_bind] at e; cases e; exact hz
  | clear =>
    obtain ⟨s, f, h1, _⟩ := clear_spec h.view h.alloc0 h.alloc1
    simp only [h1, ok_bind] at e
    cases e
    exact hz
  | compact =>
    obtain ⟨data, s, f, k, h1, h2, h3⟩ := compact_spec h.view h.alloc0 h.alloc1 h.len
    simp only [h1, ok_bind] at e
    cases e
    exact nz_len (by show (data.length : Int) = d.items.length; omega)
  | reserve n =>
    rcases reserve_spec h.view h.alloc0 h.alloc1 n (fit_small hp) h.len with ⟨h1, h2⟩ | ⟨h1, h2, h3, h4⟩ |
      ⟨h1, h2, data, alloc, s, f, h3, h4, h5, h6⟩
    · simp only [h2, ok_bind] at e; cases e; exact hz
    · simp only [h4, ok_bind] at e; cases e; exact hz
    · simp only [h3, ok_bind] at e; cases e; exact nz_len h5
  | canPut n =>
    cases hc : Ring.canPut r n with
    | error x => simp only [hc, bind, Except.bind] at e; cases e
    | ok b => simp only [hc, ok_bind] at e; cases e; exact hz
  | put p =>
    obtain ⟨b, r1, h1, h2, _⟩ := put_alive h p (by have := hp.1; omega) hp.2
    simp only [h1, ok_bind] at e
    cases e
    rcases h2 with ⟨_, h2, _⟩ | ⟨_, rfl, _⟩
    · exact nz_len (h2.len' hp.2)
    · exact hz
  | putFront p =>
    obtain ⟨b, r1, h1, h2⟩ := putFront_alive h p (by have := hp.1; omega) hp.2
    simp only [h1, ok_bind] at e
    cases e
    rcases h2 with ⟨_, h2, _⟩ | ⟨_, rfl, _⟩
    · exact nz_len (h2.len' hp.2)
    · exact hz
  | get =>
    cases hl : d.items with
    | nil => simp only [get_nil (hl ▸ h.view), ok_bind] at e; cases e; exact hz
    | cons x t =>
      obtain ⟨s, f, h1, h2⟩ := get_cons (hl ▸ h.view) h.alloc1
      simp only [h1, ok_bind] at e
      cases e
      exact hz
  | getLast =>
    by_cases hl : d.items = []
    · simp only [getLast_nil (hl ▸ h.view), ok_bind] at e; cases e; exact hz
    · have hc := List.dropLast_concat_getLast hl
      have hv := h.view
      rw [← hc] at hv
      obtain ⟨s, f, h1, h2⟩ := getLast_snoc hv h.alloc1
      simp only [h1, ok_bind] at e
      cases e
      exact hz
  | drop n =>
    obtain ⟨s, f, h1, _⟩ := drop_spec h n
    simp only [h1, ok_bind] at e
    cases e
    exact hz
  | dropLast n =>
    obtain ⟨s, f, h1, _⟩ := dropLast_spec h n
    simp only [h1, ok_bind] at e
    cases e
    exact hz
  | dataAt i => simp only [dataAt_spec h, ok_bind] at e; cases e; exact hz
  | flatten =>
    by_cases hl : d.items = []
    · simp only [flatten_nil (hl ▸ h.view) h.alloc0 h.alloc1, ok_bind] at e; cases e; exact hz
    · obtain ⟨data, s, f, k, h1, h2, h3, h4, _⟩ := flatten_spec h.view hl h.alloc0 h.alloc1 h.len
      simp only [h1, ok_bind, Int.toNat_natCast] at e
      have h4' : readBlock (rebuilt r data r.alloc s f k).data s d.items.length = .ok d.items := h4
      rw [h4'] at e
      cases e
      exact nz_view h2 hl

theorem run_eq (ops : List Op) : ∀ (r : Ring) (d : Deque), Rep r d → Nz r → Allowed d ops → run r ops = Ring.run r ops := by
  induction ops with
  | nil => intros; rfl
  | cons op ops ih =>
    intro r d h hz ha
    obtain ⟨hp, ha⟩ := ha
    rcases h with h | h
    · obtain ⟨o, r1, d1, h1, h2, h3⟩ := sim h op hp
      simp only [run, Ring.run, exec_eq h hz op hp, h1, ok_bind, ih r1 d1 h3 (exec_nz h hz op hp h1) (ha o d1 h2)]
    · have := hp.1; omega

theorem new_nz (reserved max : Int) (free : Option Nat) (h0 : 0 ≤ reserved) (h1 : reserved ≤ 2 ^ 29) {r : Ring}
    (e : newFull reserved max free = .ok r) : Nz r := by
  obtain ⟨r', e', h⟩ := new_alive reserved max free h0 h1
  rw [e] at e'
  cases e'
  exact nz_len (h.len' rfl)

end Verif.Ring.Debug
