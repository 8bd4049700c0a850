/-!
# The types of joined ranges: `sprout/range/adaptor/detail/jointed_range_default.hpp`

Only the static sizes and the types of copies are modelled; the elements are those of `joint_iterator`. `none` is a member that does not exist.
-/

namespace Sprout.Jointed

/-- ranges -/
inductive Rng
  /-- `array<T, n>` -/
  | arr (n : Nat)
  /-- a container such as `std::vector`, with `n` elements -/
  | dyn (n : Nat)
  /-- an adaptor that keeps the number of elements, such as `transformed`: `adapted_range_default` -/
  | adapted (r : Rng)
  /-- `jointed_range` -/
  | joint (l r : Rng)

/-- types of copies -/
inductive Ty
  | arr (n : Nat)
  | dyn
  deriving DecidableEq

/-- `container_traits<R>::static_size`: `jointed_range_size` (jointed_range_default.hpp 27-46, 48-62, 79-93, 110-117), `container_nosy_static_size`
(adapted_range_default.hpp 25) -/
def staticSize : Rng → Option Nat
  | .arr n => some n
  | .dyn _ => none
  | .adapted r => staticSize r
  | .joint l r =>
    match staticSize l, staticSize r with
    | some m, some n => some (m + n)
    | some m, none => some m
    | none, some n => some n
    | none, none => none

/-- `containers::is_rebindable_size<R>` (container/weak_rebind_size.hpp 42-47): those like arrays (container_transform_traits.hpp 51-61) -/
def rebindable : Rng → Bool
  | .arr _ => true
  | _ => false

/-- `containers::weak_rebind_size<C, n>::type` (weak_rebind_size.hpp 61-86) -/
def rebindTo : Ty → Nat → Ty
  | .arr _, n => .arr n
  | .dyn, _ => .dyn

/-- `container_construct_traits<C>` has the member `copied_type` but no member `type` (container_construct_traits.hpp 90-113) -/
def typeOfTraits (_c : Ty) : Option Ty := none

/-- `container_construct_traits<R>::copied_type` (adapted_range_default.hpp 48, jointed_range_default.hpp 188) with `jointed_range_copied_type` (143-178) -/
def copied : Rng → Option Ty
  | .arr n => some (.arr n)
  | .dyn _ => some .dyn
  | .adapted r => copied r
  | .joint l r =>
    if rebindable l then do
      let c ← copied l
      let s ← staticSize (.joint l r)
      typeOfTraits (rebindTo c s)
    else if rebindable r then do
      let c ← copied r
      let s ← staticSize (.joint l r)
      some (rebindTo c s)
    else copied l

end Sprout.Jointed
