import Verif.Props.IdlePool
import Verif.Model.IdlePoolDebug

namespace Verif.Pool.Debug
open Verif.C

theorem gassert_ok {c : Prop} [Decidable c] (h : c) : gassert c = .ok () := if_pos h

theorem append_eq {s : State} (h : s.last = s.items.getLast?.map Item.id) (i : Item) :
    append s.items s.last i = Pool.append s.items s.last i := by
  rw [append]
  cases hi : s.items with
  | nil => rw [hi] at h; simp at h; simp [h, gassert, ok_bind]
  | cons a t =>
    rw [hi] at h
    rw [List.getLast?_eq_some_getLast (by simp)] at h
    simp [h, ok_bind, pure, Except.pure]

theorem add_eq {s : State} (h : s.last = s.items.getLast?.map Item.id) (hr : 0 < s.refs) (b : Bool) : add s b = Pool.add s b := by
  rw [add, append_eq h, Pool.add]
  congr 1
  funext items
  rw [schedule]
  split
  · rename_i x hx
    dsimp only at hx
    rw [Pool.schedule, hx]
  · rw [gassert_ok (by exact hr), ok_bind]

theorem proc_eq : ∀ (l : List Item) {s : State} {k : Cont} {r : State × Bool}, Pool.proc l s k = .ok r → proc l s k = .ok r
  | [], _, _, _, e => e
  | i :: t, s, k, r, e => by
    unfold Pool.proc at e
    unfold proc
    split at e
    · rename_i hi
      split at e
      · cases e
      · rename_i hr
        rw [if_pos hi, gassert_ok (by omega), ok_bind, if_neg hr]
        exact proc_eq t e
    · rename_i hi
      rw [if_neg hi]
      exact e

theorem removeIdle_eq {s r : State} {x : Nat} (e : Pool.removeIdle s x = .ok r) : removeIdle s x = .ok r := by
  have e0 := e
  unfold Pool.removeIdle at e
  unfold removeIdle
  split at e
  · rename_i h; rw [if_pos h]; exact e
  · rename_i h
    rw [if_neg h]
    split at e
    · rename_i h1
      rw [if_pos h1]
      split at e
      · cases e
      · rw [gassert_ok (by omega), ok_bind]; exact e0
    · cases e

theorem drainEnd_eq {s r : State} {c c' : State → M State} (hc : ∀ a b, c a = .ok b → c' a = .ok b) (e : Pool.drainEnd s c = .ok r) :
    drainEnd s c' = .ok r := by
  unfold Pool.drainEnd at e
  unfold drainEnd
  split at e
  · rename_i h
    split
    · exact hc _ _ e
    · rename_i h2; rw [h] at h2; cases h2
  · rename_i x h
    obtain ⟨a, e1, e2⟩ := bind_ok e
    split
    · rename_i h2; rw [h] at h2; cases h2
    · rename_i h2
      rw [h] at h2
      cases h2
      rw [removeIdle_eq e1, ok_bind]
      exact hc _ _ e2

theorem drainNext_eq {s r : State} {k : Cont} {c c' : State → M State} (hc : ∀ a b, c a = .ok b → c' a = .ok b)
    (e : Pool.drainNext s k c = .ok r) : drainNext s k c' = .ok r := by
  unfold Pool.drainNext at e
  unfold drainNext
  obtain ⟨a, e1, e2⟩ := bind_ok e
  rw [e1, ok_bind]
  split at e2
  · rename_i h; rw [if_pos h]; exact drainEnd_eq hc e2
  · rename_i h
    rw [if_neg h]
    obtain ⟨⟨b, d⟩, e3, e4⟩ := bind_ok e2
    rw [proc_eq _ e3, ok_bind]
    dsimp only at e4 ⊢
    split at e4
    · rename_i h
      rw [if_pos h]
      split at e4
      · rename_i h; rw [if_pos h]; exact drainEnd_eq hc e4
      · cases e4
    · rename_i h; rw [if_neg h]; exact e4

theorem unref_eq {s r : State} (e : Pool.unref s = .ok r) : unref s = .ok r := by
  unfold Pool.unref at e
  unfold unref
  obtain ⟨a, e1, e2⟩ := bind_ok e
  rw [e1, ok_bind]
  split at e2
  · cases e2
  · rw [gassert_ok (by omega), ok_bind]
    split at e2
    · rename_i h; rw [if_pos h]; exact drainNext_eq (fun _ _ h => h) e2
    · rename_i h; rw [if_neg h]; exact e2

theorem after_eq {k : Cont} {s r : State} (e : Pool.after k s = .ok r) : after k s = .ok r := by
  cases k with
  | ret => exact e
  | destroy => exact unref_eq e
  | idle src => exact unref_eq e
  | final => exact e

theorem drain_eq {s r : State} {k : Cont} (e : Pool.drain s k = .ok r) : drain s k = .ok r :=
  drainNext_eq (fun _ _ h => after_eq h) e

theorem step_eq {s r : State} {a : Act} (h : Inv False 0 s) (ha : Allowed s a) (e : Pool.step s a = .ok r) : step s a = .ok r := by
  cases a with
  | add =>
    obtain ⟨x, e1, e2⟩ := bind_ok e
    have hr : 0 < s.refs := ha
    show (s.access >>= fun _ => add s false) = _
    rw [e1, ok_bind, add_eq h.lastEq hr]
    exact e2
  | ref =>
    obtain ⟨x, e1, e2⟩ := bind_ok e
    have hr : 0 < s.refs := ha
    show (s.access >>= fun _ => gassert (s.refs > 0) >>= fun _ => _) = _
    rw [e1, ok_bind, gassert_ok hr]
    exact e2
  | unref => exact unref_eq e
  | drain => exact drain_eq e
  | destroy => exact drain_eq e
  | dispatch src right =>
    obtain ⟨x, e1, e2⟩ := bind_ok e
    show dispatch s src right = _
    unfold dispatch
    rw [e1, ok_bind]
    split at e2
    · rename_i h; rw [if_pos h]; exact drain_eq e2
    · rename_i h; rw [if_neg h]; exact unref_eq e2
  | ret =>
    replace e : Pool.ret s = .ok r := e
    show ret s = _
    unfold Pool.ret at e
    unfold ret
    split at e
    · cases e
    · rename_i f st h
      obtain ⟨⟨b, d⟩, e1, e2⟩ := bind_ok e
      rw [h]
      dsimp only
      rw [proc_eq _ e1, ok_bind]
      dsimp only at e2 ⊢
      split at e2
      · rename_i h; rw [if_pos h]; exact drain_eq e2
      · rename_i h; rw [if_neg h]; exact e2
  | cell c => exact e

end Verif.Pool.Debug
