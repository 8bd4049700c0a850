import Verif.Basic

/-!
# Container operations

sprout/operation/fixed and sprout/operation/fit: new containers from old ones, with elements added, removed or replaced.
Containers are `array`, `basic_string` (of capacity `N`, with `N + 1` characters and a length) and `sub_array` (held by
value or by reference: what is read is the same). A pack expansion over the indexes of the result is a list of optional
values; a read outside the block is undefined behaviour. Offsets are integers; no wrapping at 64 bits is modelled, except
for a negative length of a string. Iterators are represented by their distance from `internal_begin`.
-/

namespace Sprout.ContOp

variable {α : Type}

/-- a container: `array` (array/array.hpp), `basic_string` (string/string.hpp 130-131), `sub_array` (sub_array/sub_array.hpp
144-146: `array_`, `to_first_`, `to_last_`) -/
inductive Cont (α : Type) where
  | array (l : List α)
  | string (elems : List α) (len : Nat)
  | sub (c : Cont α) (f t : Int)

namespace Cont

/-- the elements from `internal_begin` on (container/internal_begin.hpp 32-40, get_deep_internal.hpp 20-39) -/
def block : Cont α → List α
  | array l => l
  | string e _ => e
  | sub c _ _ => c.block

/-- `internal_begin_offset` (container/internal_begin_offset.hpp 21-25), with `begin` of sub_array.hpp 316-318 -/
def beginOff : Cont α → Int
  | array _ => 0
  | string _ _ => 0
  | sub c f _ => c.beginOff + f

/-- `internal_end_offset` (container/internal_end_offset.hpp 21-25), with `end` of sub_array.hpp 322-324 -/
def endOff : Cont α → Int
  | array l => l.length
  | string _ n => n
  | sub c _ t => c.beginOff + t

/-- `size` (container/size.hpp 29-33; sub_array.hpp 332-334) -/
def size : Cont α → Int
  | array l => l.length
  | string _ n => n
  | sub _ f t => t - f

/-- `container_traits<Container>::static_size` (string.hpp 264; sub_array.hpp 213-215: that of the internal container) -/
def static : Cont α → Nat
  | array l => l.length
  | string e _ => e.length - 1
  | sub c _ _ => c.static

end Cont

/-- dereferencing an iterator -/
def rdz (l : List α) (i : Int) : Option α := if 0 ≤ i then l[i.toNat]? else none

/-- `*next(internal_begin(cont), i)` -/
def internalAt (c : Cont α) (i : Int) : Option α := rdz c.block i

/-- `*next(begin(cont), i)` -/
def beginAt (c : Cont α) (i : Int) : Option α := rdz c.block (c.beginOff + i)

/-- a pack expansion over the indexes below `n` -/
def pack (n : Nat) (f : Nat → Option α) : Option (List α) := (List.range n).mapM f

/-- `detail::param_at` (detail/param_at.hpp 17-32); the last value for all greater indexes -/
def paramAt : Nat → α → List α → α
  | _, v, [] => v
  | n, v, w :: ws => if n = 0 then v else paramAt (n - 1) w ws

variable [Inhabited α]

/-- `raw_construct` of a string of capacity `N` (string.hpp, `string_raw_construct_t`) -/
def rawStr (N n : Nat) (args : List α) : Cont α :=
  .string ((List.range (N + 1)).map fun i => if i < n then args.getD i default else default) n

/-- `remake<Result>(cont, size, args...)`: container_construct_traits.hpp 47-54 (arrays), string/container.hpp 36-41,
sub_array/container.hpp 35-48, 66-74; `shape` is the type of the result -/
def remake (cont : Cont α) : (shape : Cont α) → Int → List α → Cont α
  | .array _, _, args => .array args
  | .string _ _, size, args => rawStr args.length (if size < 0 then size + 2 ^ 64 else size).toNat args
  | .sub c _ _, size, args => .sub (remake cont c size args) cont.beginOff (cont.beginOff + size)

/-- `make<Result>(args...)`: container_construct_traits.hpp 28-36 (arrays), string/container.hpp 30-35 with string.hpp
1218-1234 (the length is up to the first zero), sub_array/container.hpp 31-34, 59-65 -/
def make [DecidableEq α] : (shape : Cont α) → List α → Cont α
  | .array _, args => .array args
  | .string _ _, args => rawStr args.length (args.idxOf default) args
  | .sub c _ _, args => .sub (make c args) 0 ((make c args).endOff - (make c args).beginOff)

/-! ## fixed -/

/-- `append_impl` (operation/fixed/append.hpp 35-57), the result being of `static_size` of both (24-31) -/
def appendImpl (cont : Cont α) (pos : Int) (input : Cont α) : Option (Cont α) := do
  let args ← pack (cont.static + input.static) fun i =>
    if (i : Int) < cont.static + input.size then
      if i < pos then internalAt cont i
      else if i < pos + input.size then beginAt input (i - pos)
      else internalAt cont (i - input.size)
    else some default
  some (remake cont cont (cont.size + input.size) args)

/-- `append(cont, pos, input)` with an iterator (append.hpp 62-76) -/
def append (cont : Cont α) (pos : Int) (input : Cont α) : Option (Cont α) := appendImpl cont pos input
/-- `append(cont, pos, input)` with an index (append.hpp 77-91) -/
def appendIdx (cont : Cont α) (pos : Int) (input : Cont α) : Option (Cont α) := appendImpl cont (cont.beginOff + pos) input
/-- `append_back` (operation/fixed/append_back.hpp) -/
def appendBack (cont input : Cont α) : Option (Cont α) := appendImpl cont cont.endOff input
/-- `append_front` (operation/fixed/append_front.hpp) -/
def appendFront (cont input : Cont α) : Option (Cont α) := appendImpl cont cont.beginOff input

/-- `insert_impl` (operation/fixed/insert.hpp 37-57) -/
def insertImpl (cont : Cont α) (pos : Int) (v : α) (vs : List α) : Option (Cont α) := do
  let args ← pack (cont.static + (1 + vs.length)) fun i =>
    if i < cont.static + (1 + vs.length) then
      if (i : Int) < pos then internalAt cont i
      else if (i : Int) < pos + 1 + vs.length then some (paramAt (i - pos).toNat v vs)
      else internalAt cont (i - (1 + vs.length))
    else some default
  some (remake cont cont (cont.size + 1 + vs.length) args)

/-- `insert` with an iterator (insert.hpp 62-76) -/
def insert (cont : Cont α) (pos : Int) (v : α) (vs : List α) : Option (Cont α) := insertImpl cont pos v vs
/-- `insert` with an index (insert.hpp 77-91) -/
def insertIdx (cont : Cont α) (pos : Int) (v : α) (vs : List α) : Option (Cont α) := insertImpl cont (cont.beginOff + pos) v vs
/-- `push_back` (operation/fixed/push_back.hpp 34-44) -/
def pushBack (cont : Cont α) (v : α) (vs : List α) : Option (Cont α) := insertImpl cont cont.endOff v vs
/-- `push_front` (operation/fixed/push_front.hpp 34-44) -/
def pushFront (cont : Cont α) (v : α) (vs : List α) : Option (Cont α) := insertImpl cont cont.beginOff v vs

/-- `insert_n_impl` (operation/fixed/insert_n.hpp 39-60) -/
def insertNImpl (N : Nat) (cont : Cont α) (pos : Int) (v : α) (vs : List α) : Option (Cont α) := do
  let args ← pack (cont.static + (1 + vs.length) * N) fun i =>
    if i < cont.static + (1 + vs.length) * N then
      if (i : Int) < pos then internalAt cont i
      else if (i : Int) < pos + ((1 + vs.length) * N : Nat) then some (paramAt ((i - pos).toNat % (1 + vs.length)) v vs)
      else internalAt cont (i - ((1 + vs.length) * N : Nat))
    else some default
  some (remake cont cont (cont.size + ((1 + vs.length) * N : Nat)) args)

/-- `insert_n` with an iterator (insert_n.hpp 65-79) -/
def insertN (N : Nat) (cont : Cont α) (pos : Int) (v : α) (vs : List α) : Option (Cont α) := insertNImpl N cont pos v vs
/-- `insert_n` with an index (insert_n.hpp 83-97) -/
def insertNIdx (N : Nat) (cont : Cont α) (pos : Int) (v : α) (vs : List α) : Option (Cont α) :=
  insertNImpl N cont (cont.beginOff + pos) v vs
/-- `push_back_n` (operation/fixed/push_back_n.hpp 34-44) -/
def pushBackN (N : Nat) (cont : Cont α) (v : α) (vs : List α) : Option (Cont α) := insertNImpl N cont cont.endOff v vs
/-- `push_front_n` (operation/fixed/push_front_n.hpp 34-44) -/
def pushFrontN (N : Nat) (cont : Cont α) (v : α) (vs : List α) : Option (Cont α) := insertNImpl N cont cont.beginOff v vs

/-- `erase_impl` (operation/fixed/erase.hpp 37-55); `static_size ≥ 1` is asserted (32) -/
def eraseImpl (cont : Cont α) (pos : Int) : Option (Cont α) := do
  let args ← pack (cont.static - 1) fun i =>
    if i < cont.static - 1 then
      if (i : Int) < pos then internalAt cont i else internalAt cont (i + 1)
    else some default
  some (remake cont cont (cont.size - 1) args)

/-- `erase` with an iterator (erase.hpp 60-68) -/
def erase (cont : Cont α) (pos : Int) : Option (Cont α) := eraseImpl cont pos
/-- `erase` with an index (erase.hpp 72-80) -/
def eraseIdx (cont : Cont α) (pos : Int) : Option (Cont α) := eraseImpl cont (cont.beginOff + pos)
/-- `pop_back` (operation/fixed/pop_back.hpp 34-42) -/
def popBack (cont : Cont α) : Option (Cont α) := eraseImpl cont (cont.endOff - 1)
/-- `pop_front` (operation/fixed/pop_front.hpp 34-42) -/
def popFront (cont : Cont α) : Option (Cont α) := eraseImpl cont cont.beginOff

/-- `erase_n_impl` (operation/fixed/erase_n.hpp 38-56); `static_size ≥ N` is asserted (33) -/
def eraseNImpl (N : Nat) (cont : Cont α) (pos : Int) : Option (Cont α) := do
  let args ← pack (cont.static - N) fun i =>
    if i < cont.static - N then
      if (i : Int) < pos then internalAt cont i else internalAt cont (i + N)
    else some default
  some (remake cont cont (cont.size - N) args)

/-- `erase_n` with an iterator (erase_n.hpp 61-69) -/
def eraseN (N : Nat) (cont : Cont α) (pos : Int) : Option (Cont α) := eraseNImpl N cont pos
/-- `erase_n` with an index (erase_n.hpp 70-78) -/
def eraseNIdx (N : Nat) (cont : Cont α) (pos : Int) : Option (Cont α) := eraseNImpl N cont (cont.beginOff + pos)
/-- `pop_back_n` (operation/fixed/pop_back_n.hpp 34-42) -/
def popBackN (N : Nat) (cont : Cont α) : Option (Cont α) := eraseNImpl N cont (cont.endOff - N)
/-- `pop_front_n` (operation/fixed/pop_front_n.hpp 34-42) -/
def popFrontN (N : Nat) (cont : Cont α) : Option (Cont α) := eraseNImpl N cont cont.beginOff

/-- `set_impl` (operation/fixed/set.hpp 32-47) -/
def setImpl (cont : Cont α) (pos : Int) (v : α) : Option (Cont α) := do
  let args ← pack cont.static fun i => if (i : Int) ≠ pos then internalAt cont i else some v
  some (remake cont cont cont.size args)

/-- `set` with an iterator (set.hpp 52-61) -/
def set (cont : Cont α) (pos : Int) (v : α) : Option (Cont α) := setImpl cont pos v
/-- `set` with an index (set.hpp 62-71) -/
def setIdx (cont : Cont α) (pos : Int) (v : α) : Option (Cont α) := setImpl cont (cont.beginOff + pos) v

variable [DecidableEq α]

/-- `realign_impl` (operation/fixed/realign.hpp 32-45, 62-75), `resize_impl` (resize.hpp 36-49, 66-79): the same text;
`N` is the `static_size` of the result and `v` the default value where none is given -/
def resizeImpl (N : Nat) (shape cont : Cont α) (v : α) : Option (Cont α) := do
  let args ← pack N fun i => if (i : Int) < cont.size then beginAt cont i else some v
  some (make shape args)

/-- `realign` (realign.hpp 50-59, 80-88) -/
def realign (cont : Cont α) (v : α) : Option (Cont α) := resizeImpl cont.static cont cont v
/-- `realign_to` (realign_to.hpp 35-44, 49-57) -/
def realignTo (N : Nat) (shape cont : Cont α) (v : α) : Option (Cont α) := resizeImpl N shape cont v
/-- `resize` (resize.hpp 54-63, 84-92) -/
def resize (N : Nat) (cont : Cont α) (v : α) : Option (Cont α) := resizeImpl N cont cont v

/-- `resize_backward` (operation/fixed/resize_backward.hpp 33-48, 53-66, 69-83, 88-100) -/
def resizeBackward (N : Nat) (cont : Cont α) (v : α) : Option (Cont α) := do
  let args ← pack N fun i =>
    if (i : Int) ≥ N - cont.size ∧ (i : Int) < N - cont.size + cont.size then beginAt cont (i - (N - cont.size)) else some v
  some (make cont args)

/-! ## fit -/

omit [Inhabited α] [DecidableEq α]

/-- `get_internal` (container/get_internal.hpp 21-26, sub_array/container.hpp 105-128); other containers are themselves -/
def getInternal : Cont α → Cont α
  | .sub c _ _ => c
  | c => c

/-- `sub_copy(arr, to_first, to_last)` (sub_array/sub.hpp 255-264, 294-303; sub_window.hpp 133-168) -/
def subCopy (c : Cont α) (f t : Int) : Cont α :=
  match c with
  | .sub c f₀ _ => .sub c (f₀ + f) (f₀ + t)
  | c => .sub c f t

/-- a `fit` operation: the window of `cont`, its end moved by `k`, of the result of the `fixed` operation -/
def fitOp (cont : Cont α) (k : Int) (r : Option (Cont α)) : Option (Cont α) :=
  r.map fun r => subCopy (getInternal r) cont.beginOff (cont.endOff + k)

variable [Inhabited α]

/-- `fit::append` (operation/fit/append.hpp 38-63) -/
def fitAppend (cont : Cont α) (pos : Int) (input : Cont α) : Option (Cont α) := fitOp cont input.size (append cont pos input)
/-- `fit::append_back` (operation/fit/append_back.hpp 37-45) -/
def fitAppendBack (cont input : Cont α) : Option (Cont α) := fitOp cont input.size (appendBack cont input)
/-- `fit::append_front` (operation/fit/append_front.hpp 37-45) -/
def fitAppendFront (cont input : Cont α) : Option (Cont α) := fitOp cont input.size (appendFront cont input)
/-- `fit::insert` (operation/fit/insert.hpp 39-64) -/
def fitInsert (cont : Cont α) (pos : Int) (v : α) (vs : List α) : Option (Cont α) := fitOp cont (1 + vs.length) (insert cont pos v vs)
/-- `fit::push_back` (operation/fit/push_back.hpp 38-46) -/
def fitPushBack (cont : Cont α) (v : α) (vs : List α) : Option (Cont α) := fitOp cont (1 + vs.length) (pushBack cont v vs)
/-- `fit::push_front` (operation/fit/push_front.hpp 38-46) -/
def fitPushFront (cont : Cont α) (v : α) (vs : List α) : Option (Cont α) := fitOp cont (1 + vs.length) (pushFront cont v vs)
/-- `fit::insert_n` (operation/fit/insert_n.hpp 39-64) -/
def fitInsertN (N : Nat) (cont : Cont α) (pos : Int) (v : α) (vs : List α) : Option (Cont α) :=
  fitOp cont ((1 + vs.length) * N : Nat) (insertN N cont pos v vs)
/-- `fit::push_back_n` (operation/fit/push_back_n.hpp 38-46) -/
def fitPushBackN (N : Nat) (cont : Cont α) (v : α) (vs : List α) : Option (Cont α) :=
  fitOp cont ((1 + vs.length) * N : Nat) (pushBackN N cont v vs)
/-- `fit::push_front_n` (operation/fit/push_front_n.hpp 38-46) -/
def fitPushFrontN (N : Nat) (cont : Cont α) (v : α) (vs : List α) : Option (Cont α) :=
  fitOp cont ((1 + vs.length) * N : Nat) (pushFrontN N cont v vs)
/-- `fit::erase` (operation/fit/erase.hpp 39-56) -/
def fitErase (cont : Cont α) (pos : Int) : Option (Cont α) := fitOp cont (-1) (erase cont pos)
/-- `fit::pop_back` (operation/fit/pop_back.hpp 39-47) -/
def fitPopBack (cont : Cont α) : Option (Cont α) := fitOp cont (-1) (popBack cont)
/-- `fit::pop_front` (operation/fit/pop_front.hpp 39-47) -/
def fitPopFront (cont : Cont α) : Option (Cont α) := fitOp cont (-1) (popFront cont)
/-- `fit::erase_n` (operation/fit/erase_n.hpp 39-56): the end is moved by 1 -/
def fitEraseN (N : Nat) (cont : Cont α) (pos : Int) : Option (Cont α) := fitOp cont (-1) (eraseN N cont pos)
/-- `fit::pop_back_n` (operation/fit/pop_back_n.hpp 39-47) -/
def fitPopBackN (N : Nat) (cont : Cont α) : Option (Cont α) := fitOp cont (-N) (popBackN N cont)
/-- `fit::pop_front_n` (operation/fit/pop_front_n.hpp 39-47) -/
def fitPopFrontN (N : Nat) (cont : Cont α) : Option (Cont α) := fitOp cont (-N) (popFrontN N cont)
/-- `fit::set` (operation/fit/set.hpp 39-56) -/
def fitSet (cont : Cont α) (pos : Int) (v : α) : Option (Cont α) := fitOp cont 0 (set cont pos v)

variable [DecidableEq α]

/-- `fit::realign` (operation/fit/realign.hpp 38-55) -/
def fitRealign (cont : Cont α) (v : α) : Option (Cont α) := (realign cont v).map fun r => subCopy (getInternal r) 0 cont.size
/-- `fit::realign_to` (operation/fit/realign_to.hpp 38-55) -/
def fitRealignTo (N : Nat) (shape cont : Cont α) (v : α) : Option (Cont α) :=
  (realignTo N shape cont v).map fun r => subCopy (getInternal r) 0 cont.size
/-- `fit::resize` (operation/fit/resize.hpp 39-56) -/
def fitResize (N : Nat) (cont : Cont α) (v : α) : Option (Cont α) := (resize N cont v).map fun r => subCopy (getInternal r) 0 N
/-- `fit::resize_backward` (operation/fit/resize_backward.hpp 39-56) -/
def fitResizeBackward (N : Nat) (cont : Cont α) (v : α) : Option (Cont α) :=
  (resizeBackward N cont v).map fun r => subCopy (getInternal r) 0 N

end Sprout.ContOp
