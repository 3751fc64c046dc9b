import Verif.Model.Log

/-!
# What the log is supposed to do

Only the record types of the model are used here.
-/

namespace Verif.Log.Spec

/-- The modules from `i` on whose settings matter: all but the last one inherit the level from the
next one, which is their parent. The last one has its own level, or no parent. -/
def Chain (ms : List Module) : List Nat → Prop
  | [] => False
  | [i] => ∃ m, ms[i]? = some m ∧ (m.level ≠ -1 ∨ m.parent = none)
  | i :: j :: rest => (∃ m, ms[i]? = some m ∧ m.level = -1 ∧ m.parent = some j) ∧ Chain ms (j :: rest)

/-- None of these is disabled. -/
def NoneDisabled (ms : List Module) (chain : List Nat) : Prop :=
  ∀ i ∈ chain, ∀ m, ms[i]? = some m → m.disable = false

/-- The level of the last one, or the default one (that of the first module) -/
def levelOf (ms : List Module) (chain : List Nat) : Option Int :=
  match chain.getLast? with
  | none => none
  | some i =>
    match ms[i]? with
    | none => none
    | some m => if m.level = -1 then (ms[0]?).map Module.level else some m.level

/-- Messages of this level pass if `max` is the effective level: positive ones up to that, and
`GLOG_LEVEL_ALWAYS` (-2). -/
def Passes (level max : Int) : Prop := (0 < level ∧ level ≤ max) ∨ level = -2

/-- Small letter of a capital one -/
def small (c : BitVec 8) : BitVec 8 := if 65 ≤ c.toNat ∧ c.toNat ≤ 90 then BitVec.ofNat 8 (c.toNat + 32) else c

/-- The same text, ignoring the case of ASCII letters -/
def SameText (a b : List (BitVec 8)) : Prop := a.map small = b.map small

/-- Names of the levels -/
def names : List String := ["none", "error", "warning", "info", "debug", "verbose"]

/-- ASCII text -/
def ascii (s : String) : List (BitVec 8) := s.toUTF8.toList.map (fun c => BitVec.ofNat 8 c.toNat)

/-- The text means this level: it's the number, or the (possibly abbreviated) name of it. -/
def Denotes (t : List (BitVec 8)) (i : Nat) : Prop :=
  (i ≤ 5 ∧ t = [BitVec.ofNat 8 (0x30 + i)]) ∨ ∃ n, names[i]? = some n ∧ t ≠ [] ∧ t <+: ascii n

/-- The number written in upper case hexadecimal, with at least four digits and without
unnecessary zeros. -/
structure Hex4 (n : Nat) (t : List (BitVec 8)) : Prop where
  long : 4 ≤ t.length
  value : ∀ k, k < t.length → t[t.length - 1 - k]? =
    some (if n / 16 ^ k % 16 < 10 then BitVec.ofNat 8 (48 + n / 16 ^ k % 16) else BitVec.ofNat 8 (55 + n / 16 ^ k % 16))
  all : n < 16 ^ t.length
  short : 4 < t.length → 16 ^ (t.length - 1) ≤ n

/-- What the description says about the levels -/
def levelTable : List String :=
  ["   0, none        Disable log output",
   "   1, error       Errors only",
   "   2, warning     From warning level to errors",
   "   3, info        From information level to errors",
   "   4, debug       From debug messages to errors",
   "   5, verbose     From verbose trace messages to errors"]

/-- A line for each level, with the default one being marked -/
def levelLines (dflt : Int) : List (BitVec 8) :=
  levelTable.zipIdx.flatMap (fun (t, i) => ascii t ++ (if (i : Int) = dflt then ascii " (default)" else []) ++ ascii "\n")

/-- All these messages are logged, one after another. -/
def logAll (log : List (BitVec 8) → C.M (List Out)) : List (List (BitVec 8)) → C.M (List Out)
  | [] => .ok []
  | m :: t => do
    let o ← log m
    let r ← logAll log t
    .ok (o ++ r)

/-- `isprint` may be called for all these bytes, and zero isn't printable. -/
def Accepts (ct : Ctype) (data : List (BitVec 8)) : Prop :=
  ct.printable 0 = false ∧ (ct.mode = .wrap ∨ ct.signed = false ∨ ∀ b ∈ data, b.toNat < 128)

end Verif.Log.Spec
