import Verif.Proof.StrvOps

namespace Verif.Strv
open Verif.C Spec

theorem cmpBytes_neg : ∀ s t : Str, cmpBytes s t < 0 ↔ less s t
  | [], [] => by simp [cmpBytes, less]
  | [], _ :: _ => by simp [cmpBytes, less]
  | _ :: _, [] => by simp [cmpBytes, less]
  | a :: s, b :: t => by
    rw [cmpBytes, less]
    by_cases e : a = b
    · subst e
      simp [cmpBytes_neg s t]
    · rw [if_neg e]
      by_cases hl : a.toNat < b.toNat
      · simp [hl]
      · simp [hl, e]

theorem cmpBytes_swap : ∀ s t : Str, cmpBytes t s = - cmpBytes s t
  | [], [] => rfl
  | [], _ :: _ => rfl
  | _ :: _, [] => rfl
  | a :: s, b :: t => by
    rw [cmpBytes, cmpBytes]
    by_cases e : a = b
    · subst e
      simp [cmpBytes_swap s t]
    · rw [if_neg e, if_neg (fun e' => e e'.symm)]
      have : a.toNat ≠ b.toNat := fun e' => e (BitVec.eq_of_toNat_eq e')
      by_cases hl : a.toNat < b.toNat
      · rw [if_pos hl, if_neg (by omega)]; rfl
      · rw [if_neg hl, if_pos (by omega)]

theorem less_trans : ∀ {s t u : Str}, less s t → less t u → less s u
  | [], [], _, h, _ => by simp [less] at h
  | [], _ :: _, [], _, h => by simp [less] at h
  | [], _ :: _, _ :: _, _, _ => by simp [less]
  | _ :: _, [], _, h, _ => by simp [less] at h
  | _ :: _, _ :: _, [], _, h => by simp [less] at h
  | a :: s, b :: t, c :: u, h1, h2 => by
    rw [less] at *
    rcases h1 with h1 | ⟨rfl, h1⟩
    · rcases h2 with h2 | ⟨rfl, h2⟩
      · left; omega
      · exact .inl h1
    · rcases h2 with h2 | ⟨rfl, h2⟩
      · exact .inl h2
      · exact .inr ⟨rfl, less_trans h1 h2⟩

theorem cmpBytes_trans {s t u : Str} (h1 : cmpBytes s t ≤ 0) (h2 : cmpBytes t u ≤ 0) : cmpBytes s u ≤ 0 := by
  by_cases e1 : cmpBytes s t = 0
  · rw [(cmpBytes_eq_zero _ _).1 e1]; exact h2
  · by_cases e2 : cmpBytes t u = 0
    · rw [← (cmpBytes_eq_zero _ _).1 e2]; exact h1
    · have a := (cmpBytes_neg s t).1 (by omega)
      have b := (cmpBytes_neg t u).1 (by omega)
      have := (cmpBytes_neg s u).2 (less_trans a b)
      omega

/-- The comparison in the given direction. -/
def dirCmp (asc : Bool) (x y : Str) : Int := if asc then cmpBytes x y else -cmpBytes x y

theorem compare_ok {h : Heap} {asc : Bool} {a b : Nat} {x y : Str} (ha : h[a]? = some (some x)) (hb : h[b]? = some (some y)) :
    compare h asc (.ptr a) (.ptr b) = .ok (dirCmp asc x y) := by
  rw [compare, load, ok_bind, load, ok_bind, strcmp_ok ha hb, ok_bind]
  rfl

theorem dirCmp_swap (asc : Bool) (x y : Str) : dirCmp asc y x = - dirCmp asc x y := by
  cases asc <;> simp [dirCmp, cmpBytes_swap x y]

theorem dirCmp_trans {asc : Bool} {x y z : Str} (h1 : dirCmp asc x y ≤ 0) (h2 : dirCmp asc y z ≤ 0) : dirCmp asc x z ≤ 0 := by
  cases asc with
  | true => exact cmpBytes_trans h1 h2
  | false =>
    have e1 := cmpBytes_swap x y
    have e2 := cmpBytes_swap y z
    have e3 := cmpBytes_swap x z
    simp only [dirCmp, Bool.false_eq_true, if_false] at *
    have := cmpBytes_trans (s := z) (t := y) (u := x) (by omega) (by omega)
    omega

theorem dirCmp_eq_zero {asc : Bool} {x y : Str} : dirCmp asc x y = 0 ↔ x = y := by
  cases asc <;> simp [dirCmp, cmpBytes_eq_zero]

/-- In order, in the given direction. -/
def InOrder (asc : Bool) (x y : Str) : Prop := dirCmp asc x y ≤ 0

theorem qsort_ptrs {q : (Cell → Cell → M Int) → Block → Block} (hq : QsortContract q) {h : Heap} {ps : List Nat}
    (hl : Live h ps) (asc : Bool) :
    ∃ ps' : List Nat, q (compare h asc) (ps.map Cell.ptr) = ps'.map Cell.ptr ∧ ps'.Perm ps ∧
      ps'.Pairwise (fun a b => ∀ x y, h[a]? = some (some x) → h[b]? = some (some y) → InOrder asc x y) := by
  have live : ∀ c ∈ ps.map Cell.ptr, ∃ a x, c = .ptr a ∧ h[a]? = some (some x) := by
    intro c hc
    obtain ⟨a, ha, rfl⟩ := List.mem_map.1 hc
    obtain ⟨x, hx⟩ := hl a ha
    exact ⟨a, x, rfl, hx⟩
  obtain ⟨hperm, hpw⟩ := hq (compare h asc) (ps.map Cell.ptr)
    (by
      intro c hc d hd
      obtain ⟨a, x, rfl, hx⟩ := live c hc
      obtain ⟨b, y, rfl, hy⟩ := live d hd
      exact ⟨_, compare_ok hx hy⟩)
    (by
      intro c hc d hd r s hr hs
      obtain ⟨a, x, rfl, hx⟩ := live c hc
      obtain ⟨b, y, rfl, hy⟩ := live d hd
      rw [compare_ok hx hy] at hr
      rw [compare_ok hy hx] at hs
      cases hr; cases hs
      rw [dirCmp_swap]; omega)
    (by
      intro c hc d hd e he r s t hr hs ht h1 h2
      obtain ⟨a, x, rfl, hx⟩ := live c hc
      obtain ⟨b, y, rfl, hy⟩ := live d hd
      obtain ⟨f, z, rfl, hz⟩ := live e he
      rw [compare_ok hx hy] at hr
      rw [compare_ok hy hz] at hs
      rw [compare_ok hx hz] at ht
      cases hr; cases hs; cases ht
      exact dirCmp_trans h1 h2)
  generalize q (compare h asc) (ps.map Cell.ptr) = b at *
  let g : Cell → Option Nat := fun c => match c with | .ptr a => some a | _ => none
  have hg : ∀ l : List Nat, (l.map Cell.ptr).filterMap g = l := by
    intro l
    induction l with
    | nil => rfl
    | cons a l ih => simp only [List.map_cons, List.filterMap_cons, g]; exact congrArg _ ih
  have hb : b = (b.filterMap g).map Cell.ptr := by
    have hall : ∀ c ∈ b, ∃ a, c = .ptr a := by
      intro c hc
      obtain ⟨a, -, rfl⟩ := List.mem_map.1 (hperm.mem_iff.1 hc)
      exact ⟨a, rfl⟩
    clear hperm hpw
    induction b with
    | nil => rfl
    | cons c b ih =>
      obtain ⟨a, rfl⟩ := hall c (by simp)
      simp only [List.filterMap_cons, g, List.map_cons]
      exact congrArg _ (ih (fun c hc => hall c (by simp [hc])))
  refine ⟨b.filterMap g, hb, ?_, ?_⟩
  · have := hperm.filterMap g
    rwa [hg] at this
  · rw [hb, List.pairwise_map] at hpw
    refine hpw.imp ?_
    intro a b hab x y hx hy
    obtain ⟨r, hr, hr0⟩ := hab
    rw [compare_ok hx hy] at hr
    cases hr
    exact hr0

theorem sort_ok {q : (Cell → Cell → M Int) → Block → Block} (hq : QsortContract q) {h : Heap} {v : Vec} {ps : List Nat}
    (hv : Holds v ps) (hl : Live h ps) (asc : Bool) :
    ∃ v' ps', sort q h v asc = .ok v' ∧ Holds v' ps' ∧ ps'.Perm ps ∧
      ps'.Pairwise (fun a b => ∀ x y, h[a]? = some (some x) → h[b]? = some (some y) → InOrder asc x y) := by
  have hlen := length_ok hv
  rw [sort, hlen, ok_bind]
  rcases ps with _ | ⟨p, ps⟩
  · exact ⟨v, [], rfl, hv, .refl _, .nil⟩
  · rw [if_pos (by simp)]
    obtain ⟨ps', h1, h2, h3⟩ := qsort_ptrs hq hl asc
    rcases hv with ⟨-, hn⟩ | ⟨n, rfl⟩
    · simp at hn
    · refine ⟨some (mk ps' n), ps', ?_, .inr ⟨n, rfl⟩, h2, h3⟩
      have e1 : ((p :: ps).map Cell.ptr ++ Cell.null :: List.replicate n .uninit).take (p :: ps).length =
          (p :: ps).map Cell.ptr := by
        rw [List.take_append_of_le_length (by simp), List.take_of_length_le (by simp)]
      have e2 : ((p :: ps).map Cell.ptr ++ Cell.null :: List.replicate n .uninit).drop (p :: ps).length =
          Cell.null :: List.replicate n .uninit := by
        rw [List.drop_append_of_le_length (by simp), List.drop_of_length_le (by simp)]; rfl
      simp only [Option.getD_some]
      rw [e1, e2, h1]
      rfl

theorem search_ok {bs : (Cell → Cell → M Int) → Cell → Block → Option Nat} (hb : BsearchContract bs) {h : Heap} {v : Vec}
    {ps : List Nat} (hv : Holds v ps) (hl : Live h ps) (asc : Bool) {s : Nat} {t : Str} (hs : h[s]? = some (some t))
    (hsort : ps.Pairwise (fun a b => ∀ x y, h[a]? = some (some x) → h[b]? = some (some y) → InOrder asc x y)) :
    ∃ i, search bs h v (some s) asc = .ok i ∧
      ((∃ k : Nat, i = k ∧ (ps.map (fun a => h[a]?))[k]? = some (some (some t))) ∨
        i = -1 ∧ ∀ a ∈ ps, h[a]? ≠ some (some t)) := by
  have hlen := length_ok hv
  rw [search, hlen, ok_bind]
  rcases hps : ps with _ | ⟨p, ps1⟩
  · exact ⟨-1, rfl, .inr ⟨rfl, by simp⟩⟩
  · rw [if_pos (by simp), ← hps]
    have e1 : (v.getD []).take ps.length = ps.map Cell.ptr := by
      rcases hv with ⟨-, hn⟩ | ⟨n, rfl⟩
      · rw [hps] at hn; cases hn
      · simp only [Option.getD_some]
        rw [List.take_append_of_le_length (by simp), List.take_of_length_le (by simp)]
    rw [e1]
    have hc := hb (compare h asc) (.ptr s) (ps.map Cell.ptr)
      (by
        intro c hc
        obtain ⟨a, ha, rfl⟩ := List.mem_map.1 hc
        obtain ⟨x, hx⟩ := hl a ha
        exact ⟨_, compare_ok hs hx⟩)
      (by
        rw [List.pairwise_map]
        refine List.Pairwise.imp_of_mem ?_ hsort
        intro a b ha hb hab r r' hr hr'
        obtain ⟨x, hx⟩ := hl a ha
        obtain ⟨y, hy⟩ := hl b hb
        have hxy : dirCmp asc x y ≤ 0 := hab x y hx hy
        rw [compare_ok hs hx] at hr
        rw [compare_ok hs hy] at hr'
        cases hr; cases hr'
        refine ⟨fun h1 => dirCmp_trans h1 hxy, fun h1 => ?_⟩
        have h2 : dirCmp asc t y ≤ 0 := dirCmp_trans (by omega) hxy
        by_cases e : dirCmp asc t y = 0
        · rw [dirCmp_eq_zero] at e
          subst e
          have := dirCmp_swap asc t x
          omega
        · omega)
    rcases hr : bs (compare h asc) (.ptr s) (ps.map Cell.ptr) with _ | i
    · rw [hr] at hc
      dsimp only at hc ⊢
      refine ⟨-1, rfl, .inr ⟨rfl, ?_⟩⟩
      intro a ha e
      refine hc (.ptr a) (List.mem_map_of_mem ha) ?_
      rw [compare_ok hs e, dirCmp_eq_zero.2 rfl]
    · rw [hr] at hc
      dsimp only at hc ⊢
      obtain ⟨c, hci, hc0⟩ := hc
      refine ⟨i, rfl, .inl ⟨i, rfl, ?_⟩⟩
      rw [List.getElem?_map] at hci ⊢
      rcases hpi : ps[i]? with _ | a
      · rw [hpi] at hci; cases hci
      · rw [hpi] at hci
        cases hci
        obtain ⟨x, hx⟩ := hl a (List.mem_of_getElem? hpi)
        rw [compare_ok hs hx] at hc0
        have : t = x := dirCmp_eq_zero.1 (Except.ok.inj hc0)
        subst this
        simp [hx]

/-! ### The contracts can be met -/

def okLe {α : Type} (cmp : α → α → M Int) (x y : α) : Bool :=
  match cmp x y with
  | .ok r => decide (r ≤ 0)
  | .error _ => true

def insertCell {α : Type} (cmp : α → α → M Int) (x : α) : List α → List α
  | [] => [x]
  | y :: t => if okLe cmp x y then x :: y :: t else y :: insertCell cmp x t

/-- Insertion sort. -/
def insertionSort {α : Type} (cmp : α → α → M Int) : List α → List α
  | [] => []
  | x :: t => insertCell cmp x (insertionSort cmp t)

theorem insertCell_perm {α : Type} (cmp : α → α → M Int) (x : α) : ∀ t, (insertCell cmp x t).Perm (x :: t)
  | [] => .refl _
  | y :: t => by
    rw [insertCell]
    split
    · exact .refl _
    · exact ((insertCell_perm cmp x t).cons y).trans (.swap ..)

theorem insertionSort_perm {α : Type} (cmp : α → α → M Int) : ∀ t, (insertionSort cmp t).Perm t
  | [] => .refl _
  | x :: t => (insertCell_perm cmp x _).trans ((insertionSort_perm cmp t).cons x)

theorem insertionSort_sorts {α : Type} (cmp : α → α → M Int) (b : List α)
    (htot : ∀ x ∈ b, ∀ y ∈ b, ∃ r, cmp x y = .ok r)
    (hanti : ∀ x ∈ b, ∀ y ∈ b, ∀ r s, cmp x y = .ok r → cmp y x = .ok s → (r < 0 ↔ 0 < s))
    (htrans : ∀ x ∈ b, ∀ y ∈ b, ∀ z ∈ b, ∀ r s t, cmp x y = .ok r → cmp y z = .ok s → cmp x z = .ok t →
      r ≤ 0 → s ≤ 0 → t ≤ 0) :
    (insertionSort cmp b).Perm b ∧ (insertionSort cmp b).Pairwise (fun x y => ∃ r, cmp x y = .ok r ∧ r ≤ 0) := by
  refine ⟨insertionSort_perm cmp b, ?_⟩
  have ins : ∀ (x : α) (t : List α), x ∈ b → (∀ y ∈ t, y ∈ b) →
      t.Pairwise (fun x y => ∃ r, cmp x y = .ok r ∧ r ≤ 0) →
      (insertCell cmp x t).Pairwise (fun x y => ∃ r, cmp x y = .ok r ∧ r ≤ 0) := by
    intro x t hx
    induction t with
    | nil => intro _ _; simp [insertCell]
    | cons y t ih =>
      intro ht hp
      rw [List.pairwise_cons] at hp
      obtain ⟨r, hr⟩ := htot x hx y (ht y (by simp))
      rw [insertCell]
      by_cases hle : r ≤ 0
      · rw [if_pos (by simp [okLe, hr, hle]), List.pairwise_cons]
        refine ⟨?_, List.pairwise_cons.2 hp⟩
        intro z hz
        rcases List.mem_cons.1 hz with rfl | hz
        · exact ⟨r, hr, hle⟩
        · obtain ⟨s, hs, hs0⟩ := hp.1 z hz
          obtain ⟨u, hu⟩ := htot x hx z (ht z (by simp [hz]))
          exact ⟨u, hu, htrans x hx y (ht y (by simp)) z (ht z (by simp [hz])) r s u hr hs hu hle hs0⟩
      · rw [if_neg (by simpa [okLe, hr] using hle), List.pairwise_cons]
        refine ⟨?_, ih (fun z hz => ht z (by simp [hz])) hp.2⟩
        intro z hz
        rcases List.mem_cons.1 ((insertCell_perm cmp x t).mem_iff.1 hz) with rfl | hz
        · obtain ⟨s, hs⟩ := htot y (ht y (by simp)) z hx
          have := hanti y (ht y (by simp)) z hx s r hs hr
          exact ⟨s, hs, by omega⟩
        · exact hp.1 z hz
  have all : ∀ t : List α, (∀ y ∈ t, y ∈ b) →
      (insertionSort cmp t).Pairwise (fun x y => ∃ r, cmp x y = .ok r ∧ r ≤ 0) := by
    intro t
    induction t with
    | nil => intro _; simp [insertionSort]
    | cons x t ih =>
      intro ht
      exact ins x _ (ht x (by simp))
        (fun y hy => ht y (List.mem_cons_of_mem _ ((insertionSort_perm cmp t).mem_iff.1 hy)))
        (ih (fun y hy => ht y (by simp [hy])))
  exact all b (fun y hy => hy)

theorem insertionSort_contract : QsortContract insertionSort := insertionSort_sorts

/-- Linear search. -/
def linearSearch (cmp : Cell → Cell → M Int) (key : Cell) : Block → Option Nat
  | [] => none
  | x :: t => if cmp key x = .ok 0 then some 0 else (linearSearch cmp key t).map (· + 1)

theorem linearSearch_contract : BsearchContract linearSearch := by
  intro cmp key b h1 h2
  clear h1 h2
  induction b with
  | nil => simp [linearSearch]
  | cons x t ih =>
    rw [linearSearch]
    by_cases e : cmp key x = .ok 0
    · rw [if_pos e]
      exact ⟨x, by simp, e⟩
    · rw [if_neg e]
      rcases hr : linearSearch cmp key t with _ | i
      · rw [hr] at ih
        simp only [Option.map_none, List.mem_cons, forall_eq_or_imp]
        exact ⟨e, ih⟩
      · rw [hr] at ih
        simpa using ih

/-! ### Releasing -/

theorem freeLoop_mk : ∀ (ps : List Nat) (n : Nat) (h : Heap), Live h ps → ps.Nodup →
    ∃ h', Ptrv.freeLoop h (mk ps n) = .ok h' ∧ Released h h' (fun a => decide (a ∈ ps))
  | [], n, h, _, _ => ⟨h, rfl, released_none (by simp)⟩
  | a :: ps, n, h, hl, nd => by
    rw [List.nodup_cons] at nd
    obtain ⟨s, hs⟩ := hl a (by simp)
    obtain ⟨h', hr, hrel⟩ := freeLoop_mk ps n (h.set a none)
      (by
        intro b hb
        rw [set_none_other (by rintro rfl; exact nd.1 hb)]
        exact hl b (by simp [hb])) nd.2
    refine ⟨h', ?_, released_trans released_one hrel (by intro x; simp)⟩
    rw [mk_cons, Ptrv.freeLoop, load, ok_bind]
    dsimp only
    rw [gfree_ok hs, ok_bind, hr]

end Verif.Strv
