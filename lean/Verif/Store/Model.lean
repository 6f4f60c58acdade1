/-!
# Model of finding the file to restore

Models how `Agent.restore` (`tensorforce/agents/agent.py` 648-725) chooses file name and format, what `Model.restore`
(`tensorforce/core/models/model.py` 915-979) then opens, where `Agent.save` (`agent.py` 602-604) writes the agent specification and where
`Agent.load` (156-162) looks for it.

Simplifications: a directory is the list of its file names in the order of `os.listdir`; every entry is a file, names have no path
separator. The answer of `tf.train.latest_checkpoint` is given, and its directory is the given one (the assertion 717 holds). `int()` knows
decimal ASCII digits, underscores between digits, a sign and surrounding ASCII white space.
-/

namespace Verif.Store

abbrev Name := List Char

inductive Format where
  | checkpoint | numpy | hdf5
deriving DecidableEq

inductive Error where
  | assertion    -- `AssertionError`
  | value        -- `ValueError` of `int()`
  | type         -- `TypeError` of comparing with `None`
  | missing      -- no such file or checkpoint
deriving DecidableEq

def npz : Name := ".npz".toList
def hdf5 : Name := ".hdf5".toList
def h5 : Name := ".h5".toList
def index : Name := ".index".toList
def data : Name := ".data-".toList
def json : Name := ".json".toList

def isSpace (c : Char) : Bool := c = ' ' || (9 ≤ c.toNat && c.toNat ≤ 13)

/-- Digits, with single underscores between them; the flag says whether the last character was a digit. -/
def validDigits : Bool → Name → Bool
  | last, [] => last
  | last, c :: cs => if c.isDigit then validDigits true cs else last && c = '_' && validDigits false cs

def natOf (s : Name) : Option Int := if validDigits false s then some (Nat.ofDigitChars 10 (s.filter Char.isDigit) 0 : Nat) else none

def strip (s : Name) : Name := ((s.dropWhile isSpace).reverse.dropWhile isSpace).reverse

/-- `int(s)`, `none` for `ValueError`. -/
def pyInt (s : Name) : Option Int :=
  match strip s with
  | '-' :: cs => (natOf cs).map (- ·)
  | '+' :: cs => natOf cs
  | cs => natOf cs

/-- `name[start: -cut]`. -/
def slice (start cut : Nat) (name : Name) : Name := (name.take (name.length - cut)).drop start

/-- `found` and `latest` (`none` for `None`). -/
structure Scan where
  found : Option Format
  latest : Option Int
deriving DecidableEq

/-- 683-685 and 695-697. -/
def exact (fmt : Format) (st : Scan) : Except Error Scan := if st.found = none then .ok ⟨some fmt, none⟩ else .error .assertion

/-- 688-692 and 700-704. -/
def numbered (fmt : Format) (digits : Name) (st : Scan) : Except Error Scan :=
  if st.found = none ∨ st.found = some fmt then
    match pyInt digits with
    | none => .error .value
    | some n =>
      match st.latest with
      | none => .error .type
      | some l => .ok ⟨some fmt, some (if n > l then n else l)⟩
  else .error .assertion

/-- The loop body, 682-704. -/
def scanOne (format : Option Format) (f name : Name) (st : Scan) : Except Error Scan :=
  if (format = none ∨ format = some .numpy) ∧ name = f ++ npz then exact .numpy st
  else if (format = none ∨ format = some .numpy) ∧ f.isPrefixOf name ∧ npz.isSuffixOf name then numbered .numpy (slice (f.length + 1) 4 name) st
  else if (format = none ∨ format = some .hdf5) ∧ (name = f ++ hdf5 ∨ name = f ++ h5) then exact .hdf5 st
  else if (format = none ∨ format = some .hdf5) ∧ f.isPrefixOf name ∧ (hdf5.isSuffixOf name ∨ h5.isSuffixOf name) then
    numbered .hdf5 (slice (f.length + 1) 5 name) st
  else .ok st

/-- The loop, 681-704. -/
def scan (format : Option Format) (f : Name) : List Name → Scan → Except Error Scan
  | [], st => .ok st
  | name :: dir, st =>
    match scanOne format f name st with
    | .ok st => scan format f dir st
    | .error e => .error e

/-- `str(n)`. -/
def pyStr (n : Int) : Name := if n < 0 then '-' :: Nat.toDigits 10 n.natAbs else Nat.toDigits 10 n.natAbs

/-- 706-717. -/
def chooseCheckpoint (dir : List Name) (ckpt : Option Name) (f : Name) (format : Option Format) : Except Error (Name × Format) :=
  if format = none ∨ format = some .checkpoint then
    if f ++ index ∈ dir then .ok (f, .checkpoint)
    else match ckpt with
      | none => .error .missing
      | some g => .ok (g, .checkpoint)
  else .error .assertion

/-- 719-725; `found` is set whenever `latest` is not -1. -/
def chooseFound (st : Scan) (f : Name) (format : Option Format) : Except Error (Name × Format) :=
  match st.found with
  | none => .error .assertion
  | some found =>
    if format = none ∨ format = some found then
      .ok (match st.latest with | none => f | some n => f ++ '-' :: pyStr n, found)
    else .error .assertion

/-- 677-725. -/
def infer (dir : List Name) (ckpt : Option Name) (f : Name) (format : Option Format) : Except Error (Name × Format) :=
  match scan format f dir ⟨none, some (-1)⟩ with
  | .error e => .error e
  | .ok st => if st.latest = some (-1) then chooseCheckpoint dir ckpt f format else chooseFound st f format

/-- `s[:s.index(pattern)]`, if `pattern` occurs. -/
def before (pattern : Name) : Name → Option Name
  | [] => if pattern = [] then some [] else none
  | c :: cs => if pattern.isPrefixOf (c :: cs) then some [] else (before pattern cs).map (c :: ·)

def dropEnd (k : Nat) (s : Name) : Name := s.take (s.length - k)

/-- 653-666: the file name is complete. -/
def complete (f : Name) : Except Error (Name × Format) :=
  match before data f with
  | some g => .ok (g, .checkpoint)
  | none =>
    if npz.isSuffixOf f then .ok (dropEnd 4 f, .numpy)
    else if hdf5.isSuffixOf f then .ok (dropEnd 5 f, .hdf5)
    else if h5.isSuffixOf f then .ok (dropEnd 3 f, .hdf5)
    else .error .assertion

/-- 651-725: file name and format passed to `Model.restore`. -/
def choose (dir : List Name) (ckpt : Option Name) (f : Name) (format : Option Format) : Except Error (Name × Format) :=
  if format = none ∧ f ∈ dir then complete f
  else if format = none ∧ f ++ index ∈ dir then .ok (f, .checkpoint)
  else if format = none ∧ f ++ npz ∈ dir then .ok (f, .numpy)
  else if format = none ∧ (f ++ hdf5 ∈ dir ∨ f ++ h5 ∈ dir) then .ok (f, .hdf5)
  else infer dir ckpt f format

def openFile (dir : List Name) (name : Name) : Except Error Name := if name ∈ dir then .ok name else .error .missing

/-- The file `Model.restore` reads, 915-979 (for a checkpoint its index file). -/
def opened (dir : List Name) (r : Name × Format) : Except Error Name :=
  match r.2 with
  | .checkpoint => openFile dir (r.1 ++ index)
  | .numpy => openFile dir (r.1 ++ npz)
  | .hdf5 => if r.1 ++ hdf5 ∈ dir then openFile dir (r.1 ++ hdf5) else openFile dir (r.1 ++ h5)

/-- The file from which `Agent.restore` takes the variables. -/
def restored (dir : List Name) (ckpt : Option Name) (f : Name) (format : Option Format) : Except Error Name :=
  match choose dir ckpt f format with
  | .ok r => opened dir r
  | .error e => .error e

/-! ## The agent specification -/

/-- What `Agent.save` writes the specification to, 602-604. -/
def specWritten (f : Name) : Name := f ++ json

/-- `s[:s.rindex(c)]` and what follows `c`, if `c` occurs. -/
def lastSplit (c : Char) : Name → Option (Name × Name)
  | [] => none
  | d :: s =>
    match lastSplit c s with
    | some (a, b) => some (d :: a, b)
    | none => if d = c then some ([], s) else none

/-- `os.path.splitext(s)[0]`: cut at the last dot, unless only dots precede it. -/
def root (s : Name) : Name :=
  match lastSplit '.' s with
  | none => s
  | some (a, _) => if a.all (· = '.') then s else a

def allDigits (s : Name) : Bool := s ≠ [] && s.all Char.isDigit

/-- Where `Agent.load` looks for the specification, 156-162. -/
def specRead (dir : List Name) (f : Name) : Name :=
  let r := root f
  if r ++ json ∈ dir then r ++ json
  else
    match lastSplit '-' r with
    | none => r ++ json
    | some (a, b) => if allDigits b then a ++ json else r ++ json

end Verif.Store
