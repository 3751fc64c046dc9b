/-!
# Objects shared by threads: the vocabulary

What a program with several threads does to one object with an atomic reference counter, and what's being observed.
-/

namespace Verif.Shared

/-- What happens to the contents when the object goes away. `nothing`: there's no free function (static data); `gfree`: they are
in memory which can be given to the caller; `func`: some other free function. -/
inductive Kind
  | nothing
  | gfree
  | func
  deriving DecidableEq, Repr

/-- What a thread may start doing to the object, or (`next`) go on with what it has started. `give t u`: thread `t` passes one of its
references to thread `u`, which isn't a call to the library. -/
inductive Act
  | ref (t : Nat)
  | use (t : Nat)
  | give (t u : Nat)
  | unref (t : Nat)
  | toData (t : Nat)
  | next (t : Nat)
  deriving DecidableEq, Repr

end Verif.Shared
