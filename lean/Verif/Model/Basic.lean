/-!
# Shared vocabulary of the models

A C++ `std::string` is a list of bytes.  Nothing here models code.
-/

namespace Bedrock

/-- The content of a C++ `std::string`. -/
abbrev Bytes := List UInt8

/-- Point update of a function; used for per-handle / per-peer state tables. -/
def upd {α : Type u} {β : Type v} [DecidableEq α] (f : α → β) (a : α) (b : β) : α → β :=
  fun x => if x = a then b else f x

@[simp] theorem upd_same {α : Type u} {β : Type v} [DecidableEq α] (f : α → β) (a : α) (b : β) :
    upd f a b a = b := by simp [upd]

theorem upd_ne {α : Type u} {β : Type v} [DecidableEq α] (f : α → β) {a x : α} (b : β)
    (h : x ≠ a) : upd f a b x = f x := by simp [upd, h]

theorem upd_apply {α : Type u} {β : Type v} [DecidableEq α] (f : α → β) (a : α) (b : β) (x : α) :
    upd f a b x = if x = a then b else f x := rfl

end Bedrock
