import Verif.Store.Model

/-! # What restoring should pick -/

namespace Verif.Store

/-- The file of save number `k` under the base name `f`. -/
def save (f : Name) (k : Nat) (ext : Name) : Name := f ++ '-' :: Nat.toDigits 10 k ++ ext

/-- The most recently numbered save of `f` in the directory. -/
def IsLatest (dir : List Name) (f ext name : Name) : Prop :=
  ∃ k, name = save f k ext ∧ name ∈ dir ∧ ∀ j, save f j ext ∈ dir → j ≤ k

/-- A file whose name begins like `f` and ends like a numpy archive. -/
def LikeNumpy (f name : Name) : Prop := f <+: name ∧ npz <:+ name

/-- A file whose name begins like `f` and ends like an HDF5 archive. -/
def LikeHdf5 (f name : Name) : Prop := f <+: name ∧ (hdf5 <:+ name ∨ h5 <:+ name)

instance (f name : Name) : Decidable (LikeNumpy f name) := inferInstanceAs (Decidable (_ ∧ _))
instance (f name : Name) : Decidable (LikeHdf5 f name) := inferInstanceAs (Decidable (_ ∧ _))

end Verif.Store
