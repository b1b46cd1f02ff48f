import Verif.Narrow.Results

/-!
# Model of the hash tables (fcl/broadphase/detail/simple_hash_table-inl.h, sparse_hash_table-inl.h)

`h : Key → List ℕ` is the hash function object `h_`: the list of indices of a key.
`Data` is compared with `<` (`std::set`) and `==` (`std::list::remove`).
-/

namespace Fcl.Hash

/-- How a call can fail: an exception, or undefined behaviour. -/
inductive Fault where
  | throws
  | undefined
deriving DecidableEq, Repr

/-- Building `std::set<Data>` by inserting elements one by one, read in iteration order
(`std::inserter`, simple_hash_table-inl.h 88-96, sparse_hash_table-inl.h 82-94). -/
def addAll {D : Type*} [LinearOrder D] (s l : List D) : List D :=
  l.foldl (fun s d => setInsert (fun a b => decide (a < b)) d s) s

/-- `SimpleHashTable`: `table_` and `table_size_` (`none` until `init` has run: the member has no
initializer), simple_hash_table.h 58-66. -/
structure Simple (D : Type*) where
  bins : List (List D)
  size : Option ℕ

namespace Simple
variable {Key D : Type*} [LinearOrder D]

/-- Constructor, lines 52-57. -/
def new : Simple D := ⟨[], none⟩

/-- `std::vector::resize`. -/
def resize (l : List (List D)) (n : ℕ) : List (List D) := l.take n ++ List.replicate (n - l.length) []

/-- `init`, lines 60-70. -/
def init (n : ℕ) (t : Simple D) : Except Fault (Simple D) :=
  if n = 0 then .error .throws else .ok ⟨resize t.bins n, some n⟩

/-- The loop of `insert` and `remove`: `table_[indices[i] % range]` is changed for every index. The
remainder is undefined when `range` is 0. -/
def eachBin (f : List D → List D) : List ℕ → List (List D) → Except Fault (List (List D))
  | [], b => .ok b
  | i :: is, b => if b.length = 0 then .error .undefined else eachBin f is (b.modify (i % b.length) f)

/-- `insert`, lines 73-80. -/
def insert (h : Key → List ℕ) (k : Key) (v : D) (t : Simple D) : Except Fault (Simple D) :=
  match eachBin (fun l => l ++ [v]) (h k) t.bins with
  | .ok b => .ok { t with bins := b }
  | .error e => .error e

/-- `query`, lines 83-97. -/
def queryLoop (b : List (List D)) : List ℕ → List D → Except Fault (List D)
  | [], s => .ok s
  | i :: is, s =>
    if b.length = 0 then .error .undefined
    else match b[i % b.length]? with
      | some l => queryLoop b is (addAll s l)
      | none => .error .undefined

/-- `query`, lines 83-97. -/
def query (h : Key → List ℕ) (k : Key) (t : Simple D) : Except Fault (List D) := queryLoop t.bins (h k) []

/-- `remove`, lines 100-110. -/
def remove (h : Key → List ℕ) (k : Key) (v : D) (t : Simple D) : Except Fault (Simple D) :=
  match eachBin (fun l => l.filter (fun d => decide (d ≠ v))) (h k) t.bins with
  | .ok b => .ok { t with bins := b }
  | .error e => .error e

/-- `clear`, lines 113-118. -/
def clear (t : Simple D) : Except Fault (Simple D) :=
  match t.size with
  | some n => .ok { t with bins := resize [] n }
  | none => .error .undefined

end Simple

/-- `SparseHashTable`: `table_`, an `unordered_map` from index to list, sparse_hash_table.h 60-64. -/
structure Sparse (D : Type*) where
  bins : ℕ → Option (List D)

namespace Sparse
variable {Key D : Type*} [LinearOrder D]

/-- Constructor, lines 52-56. -/
def new : Sparse D := ⟨fun _ => none⟩

/-- `init`, lines 61-64. -/
def init (_ : ℕ) (_ : Sparse D) : Sparse D := ⟨fun _ => none⟩

/-- `table_[i]`, creating an empty list, then changed by `f`. -/
def at' (f : List D → List D) (i : ℕ) (t : Sparse D) : Sparse D :=
  ⟨fun j => if j = i then some (f ((t.bins i).getD [])) else t.bins j⟩

/-- `insert`, lines 69-74. -/
def insert (h : Key → List ℕ) (k : Key) (v : D) (t : Sparse D) : Sparse D :=
  (h k).foldl (fun t i => at' (fun l => l ++ [v]) i t) t

/-- `query`, lines 79-95. -/
def query (h : Key → List ℕ) (k : Key) (t : Sparse D) : List D :=
  (h k).foldl (fun s i => match t.bins i with
    | some l => addAll s l
    | none => s) []

/-- `remove`, lines 100-108. -/
def remove (h : Key → List ℕ) (k : Key) (v : D) (t : Sparse D) : Sparse D :=
  (h k).foldl (fun t i => at' (fun l => l.filter (fun d => decide (d ≠ v))) i t) t

/-- `clear`, lines 113-116. -/
def clear (_ : Sparse D) : Sparse D := ⟨fun _ => none⟩

end Sparse

/-- The calls of a client. -/
inductive HOp (Key D : Type*) where
  | init (n : ℕ)
  | insert (k : Key) (v : D)
  | remove (k : Key) (v : D)
  | clear
deriving DecidableEq

variable {Key D : Type*} [LinearOrder D]

/-- A history of calls on a `SimpleHashTable`. -/
def Simple.run (h : Key → List ℕ) : List (HOp Key D) → Simple D → Except Fault (Simple D)
  | [], t => .ok t
  | op :: ops, t =>
    match (match op with
      | .init n => t.init n
      | .insert k v => t.insert h k v
      | .remove k v => t.remove h k v
      | .clear => t.clear) with
    | .ok t' => Simple.run h ops t'
    | .error e => .error e

/-- A history of calls on a `SparseHashTable`. -/
def Sparse.run (h : Key → List ℕ) (ops : List (HOp Key D)) (t : Sparse D) : Sparse D :=
  ops.foldl (fun t op => match op with
    | .init n => t.init n
    | .insert k v => t.insert h k v
    | .remove k v => t.remove h k v
    | .clear => t.clear) t

end Fcl.Hash
