import Verif.Model.Alloc

/-
Model of `src/hash_table.rs`.

The hash function (`DefaultHasher` fed by `K::hash`, then `finish() as usize`,
hash_table.rs:119-121 and repeated in every method) is an arbitrary parameter
`hash : K → Nat`; the only thing used is that it is a function of the key.
The six identical `while curr_node != SENTINEL { .. }` search loops are one definition
`findLoop`; what each method does at the node found follows the loop.
-/
namespace Sokoban

/-- `HashNode` (hash_table.rs:12-20). -/
structure HashNode (K V : Type) where
  key : K
  value : V

/-- `HashTable` (hash_table.rs:45-55). -/
structure HashTable (K V : Type) (numBuckets maxSize : Nat) where
  buckets : Vector Nat numBuckets
  allocator : NodeAllocator (HashNode K V) maxSize 4

namespace HashTable
variable {K V : Type} {numBuckets maxSize : Nat}

/-- `NodeField::Left as u32` (node_allocator.rs:22-25). -/
def LEFT : Nat := 0
/-- `NodeField::Right as u32` (node_allocator.rs:22-25). -/
def RIGHT : Nat := 1

/-- `HashTable::assert_proper_alignment` (hash_table.rs:214-216). -/
def assertProperAlignment (numBuckets : Nat) : R Unit := rassert (numBuckets % 2 = 0)

/-- The value built by `HashTable::default` / `new` (hash_table.rs:83-97, 222-224) after its
assertion; `z` is `HashNode::default()`. -/
def new (z : HashNode K V) : HashTable K V numBuckets maxSize :=
  { buckets := Vector.replicate numBuckets SENTINEL, allocator := NodeAllocator.new z }

/-- `HashTable::default` with its assertion (hash_table.rs:83-97). -/
def create (z : HashNode K V) : R (HashTable K V numBuckets maxSize) := do
  assertProperAlignment numBuckets
  return new z

/-- A zero-filled buffer viewed as a hash table. -/
def zeroed (z : HashNode K V) : HashTable K V numBuckets maxSize :=
  { buckets := Vector.replicate numBuckets 0, allocator := NodeAllocator.zeroed z }

/-- `HashTable::initialize` (hash_table.rs:218-220). -/
def initialise (h : HashTable K V numBuckets maxSize) : R (HashTable K V numBuckets maxSize) := do
  let a ← h.allocator.initialise
  return { h with allocator := a }

/-- `new_from_slice` (hash_table.rs:199-204) on the table found in the buffer. -/
def newFromSlice (h : HashTable K V numBuckets maxSize) :
    R (HashTable K V numBuckets maxSize) := do
  assertProperAlignment numBuckets
  h.initialise

/-- `HashTable::get_next` (hash_table.rs:226-228). -/
def getNext (h : HashTable K V numBuckets maxSize) (index : Nat) : R Nat :=
  h.allocator.getRegister index RIGHT

/-- `HashTable::get_prev` (hash_table.rs:230-232). -/
def getPrev (h : HashTable K V numBuckets maxSize) (index : Nat) : R Nat :=
  h.allocator.getRegister index LEFT

/-- `HashTable::get_node` (hash_table.rs:234-236). -/
def getNode (h : HashTable K V numBuckets maxSize) (index : Nat) : R (HashNode K V) :=
  h.allocator.getValue index

/-- `get_node_mut(i).value = value` (hash_table.rs:238-240, 251). -/
def setNodeValue (h : HashTable K V numBuckets maxSize) (index : Nat) (value : V) :
    R (HashTable K V numBuckets maxSize) := do
  let node ← h.allocator.getValue index
  let a ← h.allocator.setValue index { node with value := value }
  return { h with allocator := a }

/-- `*get_node_mut(i) = n` (hash_table.rs:238-240): the whole node, key included, written through the reference that
the function hands out. -/
def setNode (h : HashTable K V numBuckets maxSize) (index : Nat) (n : HashNode K V) :
    R (HashTable K V numBuckets maxSize) := do
  return { h with allocator := ← h.allocator.setValue index n }

/-- `hasher.finish() as usize % NUM_BUCKETS` (hash_table.rs:119-121 etc.). -/
def bucketIndex (numBuckets : Nat) (hash : K → Nat) (key : K) : R Nat :=
  if numBuckets = 0 then .error .divByZero else .ok (hash key % numBuckets)

/-- `self.buckets[b]` (hash_table.rs:122 etc.). -/
def bucket (h : HashTable K V numBuckets maxSize) (b : Nat) : R Nat :=
  if hb : b < numBuckets then .ok h.buckets[b] else .error .indexOutOfBounds

/-- `self.buckets[b] = i` (hash_table.rs:162, 261, 293). -/
def setBucket (h : HashTable K V numBuckets maxSize) (b i : Nat) :
    R (HashTable K V numBuckets maxSize) :=
  if hb : b < numBuckets then .ok { h with buckets := h.buckets.set b i }
  else .error .indexOutOfBounds

/-- The search loop (hash_table.rs:123-130, 140-167, 248-256, 279-300, 309-316, 325-332):
index of the first node on the chain starting at `curr` whose key equals `key`, or
`SENTINEL` when the chain ends. `fuel` bounds the number of iterations. -/
def findLoop [BEq K] (h : HashTable K V numBuckets maxSize) (key : K) : Nat → Nat → R Nat
  | 0, _ => .error .diverge
  | fuel + 1, curr => do
    if curr = SENTINEL then return SENTINEL
    let node ← h.getNode curr
    if node.key == key then return curr
    let next ← h.getNext curr
    findLoop h key fuel next

/-- `NodeAllocatorMap::get` (hash_table.rs:118-132). -/
def get [BEq K] (hash : K → Nat) (h : HashTable K V numBuckets maxSize) (key : K) :
    R (Option V) := do
  let b ← bucketIndex numBuckets hash key
  let head ← h.bucket b
  let curr ← h.findLoop key (maxSize + 1) head
  if curr = SENTINEL then return none
  let node ← h.getNode curr
  return some node.value

/-- `NodeAllocatorMap::contains` (hash_table.rs:114-116). -/
def contains [BEq K] (hash : K → Nat) (h : HashTable K V numBuckets maxSize) (key : K) :
    R Bool := do
  return (← h.get hash key).isSome

/-- `NodeAllocatorMap::get_mut` (hash_table.rs:134-169). The returned `&mut V` is the slot
number of the node; the client reads and writes it with `getNode` / `setNodeValue`. -/
def getMut [BEq K] (hash : K → Nat) (h : HashTable K V numBuckets maxSize) (key : K) :
    R (HashTable K V numBuckets maxSize × Option Nat) := do
  let b ← bucketIndex numBuckets hash key
  let head ← h.bucket b
  let curr ← h.findLoop key (maxSize + 1) head
  if curr = SENTINEL then return (h, none)
  let prev ← h.getPrev curr
  let next ← h.getNext curr
  let a ← (if curr ≠ head then do
      let a ← h.allocator.clearRegister curr LEFT
      let a ← a.connect prev next RIGHT LEFT
      a.connect curr head RIGHT LEFT
    else pure h.allocator)
  let h := { h with allocator := a }
  let h ← h.setBucket b curr
  return (h, some curr)

/-- `NodeAllocatorMap::len` / `size` (hash_table.rs:171-177). -/
def len (h : HashTable K V numBuckets maxSize) : Nat := h.allocator.size

/-- `NodeAllocatorMap::capacity` (hash_table.rs:179-181). -/
def capacity (_ : HashTable K V numBuckets maxSize) : Nat := maxSize

/-- `NodeAllocatorMap::is_empty` (node_allocator.rs:43-45). -/
def isEmpty (h : HashTable K V numBuckets maxSize) : Bool := h.len = 0

/-- `HashTable::_insert` (hash_table.rs:242-271). -/
def insert [BEq K] (hash : K → Nat) (h : HashTable K V numBuckets maxSize) (key : K) (value : V) :
    R (HashTable K V numBuckets maxSize × Option Nat) := do
  let b ← bucketIndex numBuckets hash key
  let head ← h.bucket b
  let curr ← h.findLoop key (maxSize + 1) head
  if curr ≠ SENTINEL then
    let h ← h.setNodeValue curr value
    return (h, some curr)
  if h.len ≥ h.capacity then return (h, none)
  let (a, nodeIndex) ← h.allocator.addNode { key := key, value := value }
  let h := { h with allocator := a }
  let h ← h.setBucket b nodeIndex
  let a ← (if head ≠ SENTINEL then h.allocator.connect nodeIndex head RIGHT LEFT
           else pure h.allocator)
  return ({ h with allocator := a }, some nodeIndex)

/-- `HashTable::_remove` (hash_table.rs:273-302). -/
def remove [BEq K] (hash : K → Nat) (h : HashTable K V numBuckets maxSize) (key : K) :
    R (HashTable K V numBuckets maxSize × Option V) := do
  let b ← bucketIndex numBuckets hash key
  let head ← h.bucket b
  let curr ← h.findLoop key (maxSize + 1) head
  if curr = SENTINEL then return (h, none)
  let node ← h.getNode curr
  let val := node.value
  let prev ← h.getPrev curr
  let next ← h.getNext curr
  let a ← h.allocator.clearRegister curr LEFT
  let a ← a.clearRegister curr RIGHT
  let (a, _) ← a.removeNode curr
  let h := { h with allocator := a }
  let h ← (if head = curr then do
      rassert (prev = SENTINEL)
      h.setBucket b next
    else pure h)
  let a ← h.allocator.connect prev next RIGHT LEFT
  return ({ h with allocator := a }, some val)

/-- Inherent `HashTable::contains` (hash_table.rs:304-318). -/
def containsInherent [BEq K] (hash : K → Nat) (h : HashTable K V numBuckets maxSize) (key : K) :
    R Bool := do
  let b ← bucketIndex numBuckets hash key
  let head ← h.bucket b
  let curr ← h.findLoop key (maxSize + 1) head
  return curr ≠ SENTINEL

/-- `HashTable::get_addr` (hash_table.rs:320-334). -/
def getAddr [BEq K] (hash : K → Nat) (h : HashTable K V numBuckets maxSize) (key : K) : R Nat := do
  let b ← bucketIndex numBuckets hash key
  let head ← h.bucket b
  h.findLoop key (maxSize + 1) head

/-- Cursor state of `HashTableIterator` / `HashTableIteratorMut` (hash_table.rs:386-396,
440-450); the borrowed table is passed separately. -/
structure Iter where
  bucket : Nat
  node : Nat
deriving DecidableEq, Repr

/-- `HashTable::_iter` / `_iter_mut` (hash_table.rs:336-351). -/
def iter (h : HashTable K V numBuckets maxSize) : R Iter := do
  return { bucket := 0, node := ← h.bucket 0 }

/-- The inner loop of `next` (hash_table.rs:410-417, 464-471): skip empty buckets. `true`
when the loop returned `None` from `next`. -/
def Iter.skip (h : HashTable K V numBuckets maxSize) : Nat → Iter → R (Iter × Bool)
  | 0, _ => .error .diverge
  | fuel + 1, it => do
    if it.node ≠ SENTINEL then return (it, false)
    let it := { it with bucket := it.bucket + 1 }
    if it.bucket = numBuckets then return (it, true)
    let head ← h.bucket it.bucket
    Iter.skip h fuel { it with node := head }

/-- `HashTableIterator::next` (hash_table.rs:408-424). -/
def Iter.next (h : HashTable K V numBuckets maxSize) (it : Iter) : R (Iter × Option (K × V)) := do
  if it.bucket < numBuckets then
    let (it, done) ← Iter.skip h (numBuckets + 1) it
    if done then return (it, none)
    let node ← h.getNode it.node
    let nxt ← h.getNext it.node
    return ({ it with node := nxt }, some (node.key, node.value))
  else return (it, none)

/-- `HashTableIterator::next_back` (hash_table.rs:435-437). -/
def Iter.nextBack (it : Iter) : R (Iter × Option (K × V)) := .ok (it, none)

/-- `HashTableIteratorMut::next` (hash_table.rs:462-483). The `&mut V` fabricated with
`as_mut_ptr().add(ptr - 1)` is modelled by the slot number; no bounds check, as in the code. -/
def Iter.nextMut (h : HashTable K V numBuckets maxSize) (it : Iter) : R (Iter × Option Nat) := do
  if it.bucket < numBuckets then
    let (it, done) ← Iter.skip h (numBuckets + 1) it
    if done then return (it, none)
    let ptr := it.node
    let nxt ← h.getNext it.node
    return ({ it with node := nxt }, some ptr)
  else return (it, none)

/-- `HashTableIteratorMut::next_back` (hash_table.rs:494-496). -/
def Iter.nextBackMut (_ : HashTable K V numBuckets maxSize) (it : Iter) : R (Iter × Option Nat) :=
  .ok (it, none)

/-- `Index::index` (hash_table.rs:508-510). -/
def index [BEq K] (hash : K → Nat) (h : HashTable K V numBuckets maxSize) (key : K) : R V := do
  unwrap (← h.get hash key)

/-- `IndexMut::index_mut` (hash_table.rs:520-522). -/
def indexMut [BEq K] (hash : K → Nat) (h : HashTable K V numBuckets maxSize) (key : K) :
    R (HashTable K V numBuckets maxSize × Nat) := do
  let (h, s) ← h.getMut hash key
  return (h, ← unwrap s)

end HashTable
end Sokoban
