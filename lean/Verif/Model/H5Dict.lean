import Verif.Model.Base
import Mathlib.Data.Nat.Notation
import Mathlib.Tactic.TypeStar

/-
Model of `_dict2hdf5group` and `_hdf5group2dict` in `src/kikuchipy/io/plugins/_h5ebsd.py`, which
write nested dictionaries to HDF5 groups and read them.

Keys are lists of characters without "/" (h5py makes nested groups of such names). Numbers are
of an arbitrary type `V`; converting them to the data type of a dataset and back is exact.
-/

namespace Kp

mutual
/-- A value in a Python dictionary: a dictionary, a string (by code points), a number (Python or
NumPy scalar), a NumPy array, something that can not be subscripted (as `None`), or a list of
Python objects (without a `dtype`). -/
inductive PyVal (V : Type)
  | dict (d : PyDict V)
  | str (t : List ℕ)
  | scalar (v : V)
  | arr (shape : List ℕ) (data : List V)
  | noneVal
  | pyList

/-- A Python dictionary: keys and values in order of insertion. -/
inductive PyDict (V : Type)
  | nil
  | cons (key : List Char) (v : PyVal V) (rest : PyDict V)
end

mutual
/-- A member of an HDF5 group: a dataset with one fixed-length byte string, a dataset of numbers,
or a group. -/
inductive H5Obj (V : Type)
  | bytes (b : List ℕ)
  | arr (shape : List ℕ) (data : List V)
  | group (g : H5Grp V)

/-- The members of an HDF5 group in the order in which h5py iterates over them, i.e. by name. -/
inductive H5Grp (V : Type)
  | nil
  | cons (name : List Char) (o : H5Obj V) (rest : H5Grp V)
end

variable {V : Type}

/-- UTF-8 encoding of a code point (surrogates, for which Python raises, are left out). -/
def utf8Char (c : ℕ) : List ℕ :=
  if c < 0x80 then [c]
  else if c < 0x800 then [0xC0 + c / 64, 0x80 + c % 64]
  else if c < 0x10000 then [0xE0 + c / 4096, 0x80 + c / 64 % 64, 0x80 + c % 64]
  else [0xF0 + c / 262144, 0x80 + c / 4096 % 64, 0x80 + c / 64 % 64, 0x80 + c % 64]

/-- `str.encode()`. -/
def utf8 (t : List ℕ) : List ℕ := t.flatMap utf8Char

/-- Remove zeros at the end, as NumPy does with fixed-length byte strings. -/
def stripZeros (b : List ℕ) : List ℕ := (b.reverse.dropWhile (· = 0)).reverse

/-- Whether a group has a member of a name. -/
def H5Grp.has : H5Grp V → List Char → Bool
  | .nil, _ => false
  | .cons name _ rest, k => decide (name = k) || rest.has k

/-- Add a member to a group. -/
def H5Grp.insert (k : List Char) (o : H5Obj V) : H5Grp V → H5Grp V
  | .nil => .cons k o .nil
  | .cons name o' rest =>
    if k < name then .cons k o (.cons name o' rest) else .cons name o' (rest.insert k o)

mutual
/-- The body of the loop of `_dict2hdf5group` (`_h5ebsd.py` L103-126): the dataset or group
written for a value, `none` if the loop is ended with `break`. A string is written with data type
"S" and the number of characters plus one as length. -/
def writeVal : PyVal V → Except Err (Option (H5Obj V))
  | .dict d => match writeDict d .nil with
    | .error e => .error e
    | .ok g => .ok (some (.group g))
  | .str t => .ok (some (.bytes ((utf8 t).take (t.length + 1))))
  | .scalar v => .ok (some (.arr [1] [v]))
  | .arr shape data => .ok (some (.arr shape data))
  | .noneVal => .ok none
  | .pyList => .error .attributeError

/-- `_dict2hdf5group` (`_h5ebsd.py` L90-126) into a group. Names of members must be unique. -/
def writeDict : PyDict V → H5Grp V → Except Err (H5Grp V)
  | .nil, g => .ok g
  | .cons k v rest, g => match writeVal v with
    | .error e => .error e
    | .ok none => .ok g
    | .ok (some o) => if g.has k then .error .valueError else writeDict rest (g.insert k o)
end

/-- `dictionary[key] = val`. -/
def PyDict.set (k : List Char) (v : PyVal V) : PyDict V → PyDict V
  | .nil => .cons k v .nil
  | .cons k' v' rest => if k' = k then .cons k' v rest else .cons k' v' (rest.set k v)

/-- The key under which a member is stored in the dictionary (`_h5ebsd.py` L67-70): leading white
space is removed for datasets of length one. -/
def H5Obj.key (name : List Char) : H5Obj V → List Char
  | .bytes _ => name.dropWhile Char.isWhitespace
  | .arr (1 :: _) _ => name.dropWhile Char.isWhitespace
  | _ => name

mutual
/-- The value read for a member (`_h5ebsd.py` L63-86): the item of a dataset of length one,
strings decoded as Latin-1. -/
def readVal : H5Obj V → PyVal V
  | .bytes b => .str (stripZeros b)
  | .arr (1 :: []) (v :: _) => .scalar v
  | .arr (1 :: s) data => .arr s data
  | .arr [] (v :: _) => .scalar v
  | .arr shape data => .arr shape data
  | .group g => .dict (readGroup g .nil)

/-- `_hdf5group2dict` with `recursive=True` (`_h5ebsd.py` L36-87) into a dictionary. -/
def readGroup : H5Grp V → PyDict V → PyDict V
  | .nil, d => d
  | .cons name o rest, d => readGroup rest (d.set (o.key name) (readVal o))
end

end Kp
