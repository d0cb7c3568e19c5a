/-
Programs that read and write the result files. Besides result and final store a run records the store after each call or save
it made, so that the states in which an interruption can leave the files are known: an interruption between two saves leaves the
store as the last completed save made it (`np.savez` itself is one step, see Model/Store.lean).
-/
import Verif.Model.Store

namespace Verif

/-- outcome of a run: result, final store, stores left behind by the saves so far (oldest first) -/
structure Out (α : Type) where
  res : Except PyErr α
  store : Store
  seen : List Store

/-- a program -/
def Prog (α : Type) := Store → Out α

namespace Prog
variable {α β : Type}

def pure (a : α) : Prog α := fun st => ⟨.ok a, st, []⟩

def bind (p : Prog α) (f : α → Prog β) : Prog β := fun st =>
  match (p st).res with
  | .error e => ⟨.error e, (p st).store, (p st).seen⟩
  | .ok a => ⟨(f a (p st).store).res, (f a (p st).store).store, (p st).seen ++ (f a (p st).store).seen⟩

instance : Monad Prog where
  pure := pure
  bind := bind

/-- a computation without files -/
def ofExcept (e : Except PyErr α) : Prog α := fun st => ⟨e, st, []⟩

/-- reading files -/
def read (f : Store → Except PyErr α) : Prog α := fun st => ⟨f st, st, []⟩

/-- `np.savez` -/
def save (file : String) (d : Npz) : Prog Unit := fun st => ⟨.ok (), st.savez file d, [st.savez file d]⟩

/-- a call of a stage, which saves at most once and as its last action -/
def call (f : Store → Except PyErr α × Store) : Prog α := fun st => ⟨(f st).1, (f st).2, [(f st).2]⟩

/-- the states an interruption can leave -/
def crashStates (p : Prog α) (st : Store) : List Store := st :: (p st).seen

end Prog
end Verif
