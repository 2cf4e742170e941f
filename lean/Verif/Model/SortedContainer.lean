import Mathlib.Data.Rat.Defs
import Mathlib.Algebra.Order.Ring.Rat
import Mathlib.Algebra.Order.Group.Abs

/-!
# Model of `SortedContainer` (msf_core/include/msf_core/msf_sortedContainer.h)

A `std::map<double, shared_ptr<T>>` keyed by the time of the stored object.  The model keeps
the nodes in a list in key order.  A node has an identity (`id`, standing for its address) so
that an iterator to an erased node is recognised as dangling even if another node with the same
key is inserted later.

Simplifications: times are rationals; the stored object is held by value and its own `time`
member is the key of its node (the code only ever stores an object under its own time, L91, and
re-keys it when it changes the time, L371-374).
-/

namespace MSF

/-- Kinds of undefined behaviour that the C++ code can reach.  `fuel` is not a C++ behaviour: it
marks a loop of the model that did not end within its bound (proved unreachable where used). -/
inductive UB where
  | derefEnd | dangling | incEnd | decBegin | nullDeref | fuel
  deriving DecidableEq, Repr

/-- `constants::INVALID_TIME`, msf_core/include/msf_core/msf_types.h:48. -/
def invalidTime : ℚ := -1

/-- A node of the `std::map`. -/
structure Node (V : Type) where
  key : ℚ
  id : Nat
  val : V
  deriving DecidableEq, Repr

/-- The container: `ListT stateList` (L52-53).  `fresh` is the identity of the next allocated
node; the object `invalid` (L54) is represented by `none` in the query results. -/
structure Buf (V : Type) where
  nodes : List (Node V) := []
  fresh : Nat := 0
  deriving DecidableEq, Repr

/-- A `std::map` iterator: `end()` or a pointer to a node. -/
inductive Iter where
  | fin
  | at (key : ℚ) (id : Nat)
  deriving DecidableEq, Repr

/-- Behaviour of `--it` for `it == begin()`.  `std`: undefined (the C++ standard).  `gnu shape`:
libstdc++'s `_Rb_tree_decrement`; it climbs from the leftmost node and ends at the header
(`end()`) unless the root itself is leftmost, in which case it ends at the root (`begin()`).
`shape fresh keys` tells whether the root of a two-element tree is its smaller element, which
depends on the insertion history; in all other sizes the red-black invariants decide it. -/
inductive Plat where
  | std
  | gnu (shape : Nat → List ℚ → Bool)

namespace Node
variable {V : Type}
/-- Iterator to a node. -/
def iter (n : Node V) : Iter := .at n.key n.id
end Node

/-- Insert a node into a list of nodes ordered by key. -/
def insertNode {V : Type} (n : Node V) : List (Node V) → List (Node V)
  | [] => [n]
  | m :: l => if n.key < m.key then n :: m :: l else m :: insertNode n l

/-- Time of an object as the code reads it through a `shared_ptr`; the object `invalid` has time
`INVALID_TIME` (L60). -/
def timeOf {V : Type} : Option (Node V) → ℚ
  | none => invalidTime
  | some n => n.key

namespace Buf
variable {V : Type}

def keys (b : Buf V) : List ℚ := b.nodes.map Node.key

/-- Turn a search result into an iterator. -/
def toIter : Option (Node V) → Iter
  | none => .fin
  | some n => n.iter

/-- `it->second`: the node an iterator points to.  Dereferencing `end()` or an erased node is
undefined. -/
def deref (b : Buf V) : Iter → Except UB (Node V)
  | .fin => .error .derefEnd
  | .at k i =>
    match b.nodes.find? (fun n => n.key = k) with
    | none => .error .dangling
    | some n => if n.id = i then .ok n else .error .dangling

/-- `begin()`, L104-106. -/
def begin (b : Buf V) : Iter := toIter b.nodes.head?

/-- `stateList.find(t)`. -/
def find (b : Buf V) (t : ℚ) : Option (Node V) := b.nodes.find? (fun n => n.key = t)

/-- `stateList.lower_bound(t)`: first node with key not less than `t`. -/
def lowerBound (b : Buf V) (t : ℚ) : Option (Node V) := b.nodes.find? (fun n => t ≤ n.key)

/-- `stateList.upper_bound(t)`: first node with key greater than `t`. -/
def upperBound (b : Buf V) (t : ℚ) : Option (Node V) := b.nodes.find? (fun n => t < n.key)

/-- Last node with key less than `t` (the in-order predecessor of position `t`). -/
def pred (b : Buf V) (t : ℚ) : Option (Node V) := (b.nodes.filter (fun n => n.key < t)).getLast?

/-- `--it` at `it == begin()`, see `Plat`. -/
def decBegin (p : Plat) (b : Buf V) : Except UB Iter :=
  match p with
  | .std => .error .decBegin
  | .gnu shape =>
    match b.nodes with
    | [] => .error .nullDeref
    | [n] => .ok n.iter
    | [n, _] => if shape b.fresh b.keys then .ok n.iter else .ok .fin
    | _ => .ok .fin

/-- `++it`: undefined at `end()` and for dangling iterators. -/
def incr (b : Buf V) : Iter → Except UB Iter
  | .fin => .error .incEnd
  | .at k i => do
    let n ← b.deref (.at k i)
    return toIter (b.upperBound n.key)

/-- `--it`.  From `end()` it reaches the last node; from the first node see `decBegin`. -/
def decr (p : Plat) (b : Buf V) : Iter → Except UB Iter
  | .fin =>
    match b.nodes.getLast? with
    | none => b.decBegin p
    | some n => .ok n.iter
  | .at k i => do
    let n ← b.deref (.at k i)
    match b.pred n.key with
    | none => b.decBegin p
    | some m => return m.iter

/-- Mutation of the object stored at key `k` through its `shared_ptr`. -/
def modify (b : Buf V) (k : ℚ) (f : V → V) : Buf V :=
  { b with nodes := b.nodes.map (fun n => if n.key = k then { n with val := f n.val } else n) }

/-- `SortedContainer::Clear`, L73-75. -/
def clear (b : Buf V) : Buf V := { b with nodes := [] }

/-- `SortedContainer::Size`, L81-83. -/
def size (b : Buf V) : Nat := b.nodes.length

/-- `SortedContainer::Insert`, L89-99.  `std::map::insert` keeps the existing element if the key is
occupied, and returns the iterator to it. -/
def insert (b : Buf V) (t : ℚ) (v : V) : Buf V × Iter :=
  match b.find t with
  | some n => (b, n.iter)
  | none =>
    let n : Node V := ⟨t, b.fresh, v⟩
    ({ nodes := insertNode n b.nodes, fresh := b.fresh + 1 }, n.iter)

/-- `SortedContainer::GetIteratorBeforeBegin`, L111-114. -/
def iterBeforeBegin (p : Plat) (b : Buf V) : Except UB Iter := b.decBegin p

/-- `SortedContainer::GetIteratorAtValue`, L129-140 and L148-159 (the two overloads agree). -/
def iterAtValue (b : Buf V) (t : ℚ) : Iter :=
  match b.find t with
  | some n => n.iter
  | none => toIter (b.lowerBound t)

/-- `SortedContainer::GetIteratorClosestBefore`, L166-171. -/
def iterClosestBefore (p : Plat) (b : Buf V) (t : ℚ) : Except UB Iter :=
  b.decr p (toIter (b.lowerBound t))

/-- `SortedContainer::GetIteratorClosestAfter`, L178-182. -/
def iterClosestAfter (b : Buf V) (t : ℚ) : Iter := toIter (b.upperBound t)

/-- `SortedContainer::GetIteratorClosest`, L189-221. -/
def iterClosest (p : Plat) (b : Buf V) (t : ℚ) : Except UB Iter :=
  match b.find t with
  | some n => .ok n.iter
  | none => do
    let tauMinus ← b.iterClosestBefore p t
    let tauPlus := b.iterClosestAfter t
    let beforeBegin ← b.iterBeforeBegin p
    if tauMinus = beforeBegin then return b.begin
    if tauMinus = .fin then return tauPlus
    if tauPlus = .fin then return tauMinus
    let np ← b.deref tauPlus
    let nm ← b.deref tauMinus
    if |np.key - t| < |nm.key - t| then return tauPlus else return tauMinus

/-- `SortedContainer::GetClosestBefore`, L228-240.  `none` is the object `invalid`. -/
def closestBefore (b : Buf V) (t : ℚ) : Option (Node V) :=
  match b.nodes with
  | [] => none
  | n :: _ =>
    match b.pred t with
    | none => some n            -- lower_bound(t) == begin(): returns the first object (L235-237)
    | some m => some m

/-- `SortedContainer::GetClosestAfter`, L248-254. -/
def closestAfter (b : Buf V) (t : ℚ) : Option (Node V) := b.upperBound t

/-- `SortedContainer::GetValueAt`, L262-268. -/
def valueAt (b : Buf V) (t : ℚ) : Option (Node V) := b.find t

/-- `SortedContainer::GetClosest`, L275-295. -/
def closest (b : Buf V) (t : ℚ) : Option (Node V) :=
  match b.valueAt t with
  | some n => some n
  | none =>
    let tauMinus := b.closestBefore t
    let tauPlus := b.closestAfter t
    if timeOf tauMinus = invalidTime then tauPlus
    else if timeOf tauPlus = invalidTime then tauMinus
    else if |timeOf tauPlus - t| < |timeOf tauMinus - t| then tauPlus else tauMinus

/-- `SortedContainer::GetLast`, L318-326. -/
def last (b : Buf V) : Option (Node V) := b.nodes.getLast?

/-- `SortedContainer::GetFirst`, L333-341. -/
def first (b : Buf V) : Option (Node V) := b.nodes.head?

/-- `SortedContainer::ClearOlderThan`, L303-311.  `erase(begin, it)` removes all nodes before `it`. -/
def clearOlderThan (p : Plat) (b : Buf V) (age : ℚ) : Except UB (Buf V) := do
  let newest := timeOf b.last
  let oldest := timeOf b.first
  if newest - oldest < age then return b
  let it ← b.iterClosest p (newest - age)
  let n ← b.deref it
  let f ← b.deref b.begin
  if n.key > f.key then return { b with nodes := b.nodes.filter (fun m => n.key ≤ m.key) }
  else return b

/-- `SortedContainer::UpdateTime`, L353-376.  Returns the container and the returned object. -/
def updateTime (b : Buf V) (told tnew : ℚ) : Buf V × Option (Node V) :=
  match b.find told with
  | none => (b, b.closest told)
  | some n =>
    let b1 : Buf V := { b with nodes := b.nodes.filter (fun m => m.key ≠ n.key) }
    let b2 := (b1.insert tnew n.val).1
    (b2, b2.find tnew)

end Buf
end MSF
