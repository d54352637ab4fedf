import Verif.Model.Cpp

/-
Model of include/std/algorithm.hpp (namespace std20) and
include/core/text.hpp.
-/

namespace Verif

namespace Std20
variable {α : Type}

/-- `copy( first, last, d_first )` (algorithm.hpp:13-21): the memory afterwards and the returned iterator.
Simplification: iterators are pointers, as indices into one memory `m` (so ranges may overlap). -/
def copy (m : List α) (first last d_first : Nat) : Res (List α × Nat) :=
  if first = last then .ok (m, d_first)
  else if h : first < m.length then
    if d_first < m.length then copy (m.set d_first m[first]) (first + 1) last (d_first + 1)
    else .error .outOfBounds
  else .error .outOfBounds
termination_by m.length - first
decreasing_by simp only [List.length_set]; omega

/-- `fill( first, last, value )` (algorithm.hpp:23-30). -/
def fill (m : List α) (first last : Nat) (value : α) : Res (List α) :=
  if first = last then .ok m
  else if first < m.length then fill (m.set first value) (first + 1) last value
  else .error .outOfBounds
termination_by m.length - first
decreasing_by simp only [List.length_set]; omega

/-- `equal( first1, last1, first2, p )` (algorithm.hpp:45-56); evaluating the predicate may be undefined. -/
def equalBy {β : Type} (p : α → β → Res Bool) (m1 : List α) (m2 : List β) (first1 last1 first2 : Nat) : Res Bool :=
  if first1 = last1 then .ok true
  else if h1 : first1 < m1.length then
    if h2 : first2 < m2.length then
      (p m1[first1] m2[first2]).bind fun b =>
        if !b then .ok false else equalBy p m1 m2 (first1 + 1) last1 (first2 + 1)
    else .error .outOfBounds
  else .error .outOfBounds
termination_by m1.length - first1

/-- `equal( first1, last1, first2 )` (algorithm.hpp:32-43). -/
def equal [BEq α] (m1 m2 : List α) (first1 last1 first2 : Nat) : Res Bool :=
  if first1 = last1 then .ok true
  else if h1 : first1 < m1.length then
    if h2 : first2 < m2.length then
      if !(m1[first1] == m2[first2]) then .ok false
      else equal m1 m2 (first1 + 1) last1 (first2 + 1)
    else .error .outOfBounds
  else .error .outOfBounds
termination_by m1.length - first1

end Std20

namespace Text

/-- `Text::find( from )` (text.hpp:26; semantics of `std::string::find`): the position of the first occurrence,
searched from position `pos`; `none` is `npos`. -/
def findFrom (from_ : List Char) : (text : List Char) → (pos : Nat) → Option Nat
  | [], pos => if from_.isPrefixOf [] then some pos else none
  | c :: text, pos => if from_.isPrefixOf (c :: text) then some pos else findFrom from_ text (pos + 1)

/-- `Text::replace( pos, len, to )` (text.hpp:27; semantics of `std::string::replace`). -/
def replace (text : List Char) (pos len : Nat) (to_ : List Char) : List Char :=
  text.take pos ++ to_ ++ text.drop (pos + len)

/-- `replaced( text, from, to )` (text.hpp:24-28). -/
def replaced (text from_ to_ : List Char) : List Char :=
  match findFrom from_ text 0 with
  | none => text
  | some pos => replace text pos from_.length to_

/-- `line( size, chr )` (text.hpp:17-20): a negative size converts to one beyond `max_size()`, for which the
constructor of `std::string` throws. -/
def line (size : Int) (chr : Char) : Res (List Char) :=
  if size < 0 then .error .exception else .ok (List.replicate size.toNat chr)

end Text
end Verif
