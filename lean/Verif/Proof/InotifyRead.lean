import Verif.Model.InotifyRead

namespace Verif.Inotify
open Verif.C

theorem word_length (little : Bool) (x : BitVec 32) : (word little x).length = 4 := by
  cases little <;> rfl

theorem field_word {little : Bool} {pre post : List Byte} {x : BitVec 32} {off : Nat} (h : pre.length = off) :
    field little (pre ++ word little x ++ post) off = .ok x := by
  have key : ∀ (l : List Byte) (k : Nat) (b : Byte), l[k]? = some b → rd l (k : Int) = .ok b := by
    intro l k b hb
    unfold rd
    rw [if_pos (by omega)]
    have : (k : Int).toNat = k := by omega
    rw [this, hb]
  have get : ∀ (k : Nat) (b : Byte), k < 4 → (word little x)[k]? = some b → (pre ++ word little x ++ post)[off + k]? = some b := by
    intro k b hk hb
    rw [List.append_assoc, List.getElem?_append, if_neg (by omega), List.getElem?_append, if_pos (by rw [word_length]; omega)]
    have : off + k - pre.length = k := by omega
    rw [this]
    exact hb
  unfold field
  cases little with
  | true =>
    rw [key _ off _ (get 0 _ (by omega) rfl), ok_bind,
      show ((off : Int) + 1) = ((off + 1 : Nat) : Int) by omega, key _ (off + 1) _ (get 1 _ (by omega) rfl), ok_bind,
      show ((off : Int) + 2) = ((off + 2 : Nat) : Int) by omega, key _ (off + 2) _ (get 2 _ (by omega) rfl), ok_bind,
      show ((off : Int) + 3) = ((off + 3 : Nat) : Int) by omega, key _ (off + 3) _ (get 3 _ (by omega) rfl), ok_bind, if_pos rfl]
    congr 1
    apply BitVec.eq_of_getLsbD_eq
    intro i hi
    simp only [BitVec.getLsbD_append, BitVec.getLsbD_extractLsb']
    rcases (by omega : i < 8 ∨ (8 ≤ i ∧ i < 16) ∨ (16 ≤ i ∧ i < 24) ∨ 24 ≤ i) with h | ⟨h, h'⟩ | ⟨h, h'⟩ | h
    · simp [h]
    · simp [show ¬ i < 8 by omega, show i - 8 < 8 by omega, show 8 + (i - 8) = i by omega]
    · simp [show ¬ i < 8 by omega, show ¬ i - 8 < 8 by omega, show i - 8 - 8 < 8 by omega, show 16 + (i - 8 - 8) = i by omega]
    · simp [show ¬ i < 8 by omega, show ¬ i - 8 < 8 by omega, show ¬ i - 8 - 8 < 8 by omega, show i - 8 - 8 - 8 < 8 by omega, show 24 + (i - 8 - 8 - 8) = i by omega]
  | false =>
    rw [key _ off _ (get 0 _ (by omega) rfl), ok_bind,
      show ((off : Int) + 1) = ((off + 1 : Nat) : Int) by omega, key _ (off + 1) _ (get 1 _ (by omega) rfl), ok_bind,
      show ((off : Int) + 2) = ((off + 2 : Nat) : Int) by omega, key _ (off + 2) _ (get 2 _ (by omega) rfl), ok_bind,
      show ((off : Int) + 3) = ((off + 3 : Nat) : Int) by omega, key _ (off + 3) _ (get 3 _ (by omega) rfl), ok_bind, if_neg (by simp)]
    congr 1
    apply BitVec.eq_of_getLsbD_eq
    intro i hi
    simp only [BitVec.getLsbD_append, BitVec.getLsbD_extractLsb']
    rcases (by omega : i < 8 ∨ (8 ≤ i ∧ i < 16) ∨ (16 ≤ i ∧ i < 24) ∨ 24 ≤ i) with h | ⟨h, h'⟩ | ⟨h, h'⟩ | h
    · simp [h]
    · simp [show ¬ i < 8 by omega, show i - 8 < 8 by omega, show 8 + (i - 8) = i by omega]
    · simp [show ¬ i < 8 by omega, show ¬ i - 8 < 8 by omega, show i - 8 - 8 < 8 by omega, show 16 + (i - 8 - 8) = i by omega]
    · simp [show ¬ i < 8 by omega, show ¬ i - 8 < 8 by omega, show ¬ i - 8 - 8 < 8 by omega, show i - 8 - 8 - 8 < 8 by omega, show 24 + (i - 8 - 8 - 8) = i by omega]

theorem padded_length (name : List Byte) : (padded name).length = if name = [] then 0 else (name.length / 16 + 1) * 16 := by
  unfold padded
  split
  · rfl
  · rw [List.length_append, List.length_replicate]
    have := Nat.div_add_mod name.length 16
    have := Nat.mod_lt name.length (by omega : 16 > 0)
    omega

theorem cstring_eq {name rest : List Byte} {n : Nat} (h0 : 0 ∉ name) (hn : 0 < n) : cstring (name ++ List.replicate n 0 ++ rest) = .ok name := by
  induction name with
  | nil =>
    obtain ⟨m, rfl⟩ : ∃ m, n = m + 1 := ⟨n - 1, by omega⟩
    rfl
  | cons c t ih =>
    have hc : c ≠ 0 := fun e => h0 (e ▸ List.mem_cons_self)
    have := ih (fun hm => h0 (List.mem_cons_of_mem _ hm))
    rw [List.cons_append, List.cons_append, cstring, if_neg hc, this, ok_bind]

theorem len_toNat {name : List Byte} (h : NameOk name) : (BitVec.ofNat 32 (padded name).length).toNat = (padded name).length := by
  rw [BitVec.toNat_ofNat, padded_length]
  have := h.2
  split <;> omega

theorem encode_length (little : Bool) (e : KEvent) : (encode little e).length = 16 + (padded e.ev.name).length := by
  unfold encode
  simp only [List.length_append, word_length]

theorem parseEvent_eq {little : Bool} {e : KEvent} {rest : List Byte} (h : NameOk e.ev.name) :
    parseEvent little (encode little e ++ rest) (BitVec.ofNat 32 (padded e.ev.name).length) = .ok e := by
  have e1 : encode little e ++ rest = [] ++ word little e.wd ++
      (word little e.ev.mask ++ word little e.ev.cookie ++ word little (BitVec.ofNat 32 (padded e.ev.name).length) ++ padded e.ev.name ++ rest) := by
    simp [encode]
  have e2 : encode little e ++ rest = word little e.wd ++ word little e.ev.mask ++
      (word little e.ev.cookie ++ word little (BitVec.ofNat 32 (padded e.ev.name).length) ++ padded e.ev.name ++ rest) := by
    simp [encode]
  have e3 : encode little e ++ rest = word little e.wd ++ word little e.ev.mask ++ word little e.ev.cookie ++
      (word little (BitVec.ofNat 32 (padded e.ev.name).length) ++ padded e.ev.name ++ rest) := by
    simp [encode]
  have e4 : (encode little e ++ rest).drop headerSize = padded e.ev.name ++ rest := by
    have : encode little e ++ rest = (word little e.wd ++ word little e.ev.mask ++ word little e.ev.cookie ++
      word little (BitVec.ofNat 32 (padded e.ev.name).length)) ++ (padded e.ev.name ++ rest) := by simp [encode]
    rw [this]
    apply List.drop_left'
    simp only [List.length_append, word_length]
    rfl
  unfold parseEvent
  have f1 : field little (encode little e ++ rest) 0 = .ok e.wd := by rw [e1]; exact field_word rfl
  have f2 : field little (encode little e ++ rest) 4 = .ok e.ev.mask := by rw [e2]; exact field_word (word_length _ _)
  have f3 : field little (encode little e ++ rest) 8 = .ok e.ev.cookie := by
    rw [e3]
    exact field_word (by simp only [List.length_append, word_length])
  have f4 : nameOf (BitVec.ofNat 32 (padded e.ev.name).length) (padded e.ev.name ++ rest) = .ok e.ev.name := by
    unfold nameOf
    have hl := len_toNat h
    have hp := padded_length e.ev.name
    by_cases hn : e.ev.name = []
    · rw [if_pos hn] at hp
      rw [hp, hn]
      rfl
    · rw [if_neg hn] at hp
      rw [if_neg]
      · unfold padded
        rw [if_neg hn]
        refine cstring_eq h.1 ?_
        have := Nat.div_add_mod e.ev.name.length 16
        have := Nat.mod_lt e.ev.name.length (by omega : 16 > 0)
        omega
      · intro hz
        rw [hz] at hl
        have : (0 : BitVec 32).toNat = 0 := rfl
        omega
  rw [f1, ok_bind, f2, ok_bind, f3, ok_bind, e4, f4, ok_bind]

theorem parseLoop_eq {little : Bool} : ∀ {es : List KEvent} {fuel : Nat}, (∀ e ∈ es, NameOk e.ev.name) → (es.flatMap (encode little)).length ≤ fuel →
    parseLoop little fuel (es.flatMap (encode little)) = .ok es := by
  intro es
  induction es with
  | nil =>
    intro fuel _ _
    cases fuel <;> rfl
  | cons e t ih =>
    intro fuel h hf
    have he := h e List.mem_cons_self
    rw [List.flatMap_cons] at hf ⊢
    have hl := encode_length little e
    rw [List.length_append] at hf
    obtain ⟨m, rfl⟩ : ∃ m, fuel = m + 1 := ⟨fuel - 1, by omega⟩
    unfold parseLoop
    rw [if_pos (by rw [List.length_append]; omega)]
    have f : field little (encode little e ++ t.flatMap (encode little)) 12 = .ok (BitVec.ofNat 32 (padded e.ev.name).length) := by
      have : encode little e ++ t.flatMap (encode little) = (word little e.wd ++ word little e.ev.mask ++ word little e.ev.cookie) ++
        word little (BitVec.ofNat 32 (padded e.ev.name).length) ++ (padded e.ev.name ++ t.flatMap (encode little)) := by simp [encode]
      rw [this]
      exact field_word (by simp only [List.length_append, word_length])
    rw [f, ok_bind, len_toNat he, if_neg (by rw [List.length_append, hl]; unfold headerSize; omega), parseEvent_eq he, ok_bind]
    have hd : (encode little e ++ t.flatMap (encode little)).drop (headerSize + (padded e.ev.name).length) = t.flatMap (encode little) :=
      List.drop_left' hl
    rw [hd, ih (fun x hx => h x (List.mem_cons_of_mem _ hx)) (by omega), ok_bind]

end Verif.Inotify
