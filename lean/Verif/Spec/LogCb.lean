import Verif.Model.LogCb
import Verif.Spec.Log
import Verif.Spec.Hex

/-!
# What the log is supposed to do if log functions use it

What happens to a single message is `Log.logv`; C58, C59 and C86-C88 tell what it does. The histories below consist of those, and the only
thing which log functions have influence on is the configuration which is used for whatever follows.
-/

namespace Verif.LogCb.Spec
open Verif.C
open Verif.Log (Out Env Ctype)

/-- These are the messages which show the data, 16 bytes each. -/
def Lines (ct : Ctype) (pfx : Str) (data : List Byte) (msgs : List Str) : Prop :=
  msgs.length = (data.length + 15) / 16 ∧
  ∀ k, k < msgs.length → ∃ addr line, msgs[k]? = some (pfx ++ addr ++ Log.Spec.ascii ": " ++ line) ∧ Log.Spec.Hex4 (16 * k) addr ∧
    Misc.Spec.Line ct.printable ((data.drop (16 * k)).take 16) line

/-- Either any number of calls, or logging of the messages one after another -/
inductive Task
  | calls
  | messages (module : Option Nat) (level : Int) (msgs : List Str)

/-- `Run env ct t c h c'`: that's what the complete history `h` of the task `t` may look like, `c` being the configuration in the beginning and `c'` the one at
the end. -/
inductive Run (env : Env) (ct : Ctype) : Task → Config → List Event → Config → Prop
  /-- nothing is called -/
  | nothing (c : Config) : Run env ct .calls c [] c
  /-- the configuration is changed -/
  | set {c c1 c2 : Config} {h : List Event} {x : Setting} : Run env ct .calls c h c1 → change c1 x = .ok c2 → Run env ct .calls c (h ++ [.set x]) c2
  /-- a message is logged -/
  | log {c c1 c2 : Config} {h h' : List Event} {module : Option Nat} {level : Int} {msg : Str} : Run env ct .calls c h c1 →
    Run env ct (.messages module level [msg]) c1 h' c2 → Run env ct .calls c (h ++ .log module level msg :: h' ++ [.done]) c2
  /-- data are dumped; whether that's enabled is only decided in the beginning -/
  | dump {c c1 c2 : Config} {h h' : List Event} {module : Option Nat} {level : Int} {pfx : Option Str} {data : List Byte} {msgs : List Str} : Run env ct .calls c h c1 →
    Log.enabled c1 module level = .ok true → Lines ct (pfx.getD []) data msgs → Run env ct (.messages module level msgs) c1 h' c2 →
    Run env ct .calls c (h ++ .dump module level pfx data :: h' ++ [.done]) c2
  /-- that's disabled -/
  | quiet {c c1 : Config} {h : List Event} {module : Option Nat} {level : Int} {pfx : Option Str} {data : List Byte} : Run env ct .calls c h c1 →
    Log.enabled c1 module level = .ok false → Run env ct .calls c (h ++ [.dump module level pfx data, .done]) c1
  /-- there's nothing to be logged -/
  | all (module : Option Nat) (level : Int) (c : Config) : Run env ct (.messages module level []) c [] c
  /-- the message is printed, or it's not because of the level -/
  | print {c c1 : Config} {h : List Event} {module : Option Nat} {level : Int} {msgs : List Str} {msg : Str} {outs : List Out} : Run env ct (.messages module level msgs) c h c1 →
    Log.logv env c1 module level msg = .ok outs → (∀ o ∈ outs, custom o = false) → Run env ct (.messages module level (msgs ++ [msg])) c (h ++ outs.map .out) c1
  /-- the message is passed to a custom log function, which does something and returns -/
  | call {c c1 c2 : Config} {h h' : List Event} {module : Option Nat} {level : Int} {msgs : List Str} {msg : Str} {o : Out} : Run env ct (.messages module level msgs) c h c1 →
    Log.logv env c1 module level msg = .ok [o] → custom o = true → Run env ct .calls c1 h' c2 →
    Run env ct (.messages module level (msgs ++ [msg])) c (h ++ .out o :: h' ++ [.ret]) c2

end Verif.LogCb.Spec
