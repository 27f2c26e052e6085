/-!
# Outcomes of C++ calls

A call either returns, throws a C++ exception, or has undefined behaviour (UB).
UB is a separate outcome, it is never assumed away.
-/

namespace Wis

/-- Exceptions, one per `throw` in `/repo/src` plus those of the standard and JSON libraries.
(exceptions.cc:1-9 is the class that is thrown.) -/
inductive Exn where
  | entrySize        -- discriminator.cc:324-328 "The entry size defined on creation ..."
  | baseTooSmall     -- discriminator.cc:330-334
  | addrTooSmall     -- discriminator.cc:337-339
  | entryTooSmall    -- discriminator.cc:340-342
  | addrTooBig       -- discriminator.cc:343-345
  | idxSize          -- discriminator.cc:349-351
  | idxRange         -- discriminator.cc:355-357
  | idxRepeated      -- discriminator.cc:361-363
  | limit64          -- ram.cc:166-172
  | valueTooBig      -- ram.cc:174-178
  | sizesDiffer      -- wisard.cc:238-242, cluswisard.cc:274-278
  | confidence       -- wisard.cc:244-248, cluswisard.cc:280-284
  | labelsTooMany    -- cluswisard.cc:250-254
  | noValidIndex     -- cluswisard.cc:256-260
  | minScore         -- cluswisard.cc:263-265
  | threshold        -- cluswisard.cc:266-268
  | discLimit        -- cluswisard.cc:269-271
  | indexOutOfRange  -- bininput.cc:27-29, 36-38
  | invalidExtension -- dataset.cc:6-8
  | kernelsTooFew    -- kernelcanvas.cc:206-207
  | dimTooSmall      -- kernelcanvas.cc:208-209
  | bitsTooFew       -- kernelcanvas.cc:210-211
  | activationDegree -- kernelcanvas.cc:212-213
  | dimension        -- kernelcanvas.cc:216-219
  | stdOutOfRange    -- std::out_of_range (std::string::substr, std::unordered_map::at)
  | stdLengthError   -- std::length_error (std::string(n, c) with a huge n)
  | jsonType         -- nlohmann::json type_error
  | jsonUtf8         -- nlohmann::json type_error 316 (dump of a string that is not UTF-8)
  | jsonParse        -- nlohmann::json parse_error 101
  | jsonRange        -- nlohmann::json out_of_range 406 (number too big for a double)
  | pyCast           -- pybind11::cast_error (a keyword argument of a wrong type)
  deriving DecidableEq, Repr

/-- Kinds of undefined behaviour distinguished by the model.
E.g. of discriminator.cc:193, dataset.cc:48, utils.cc:56, 113, ram.cc:43. -/
inductive UB where
  | outOfBounds      -- access outside a std::vector / std::string
  | overflow         -- signed integer overflow
  | divByZero        -- integer division or remainder by zero
  | uninitialised    -- read of a member that was never initialised
  | nullDeref        -- dereference of a null pointer
  | badOrder         -- std::sort with a comparison that is not a strict weak order
  deriving DecidableEq, Repr

/-- Abnormal end of a call. Exceptions as in exceptions.cc:1-9. -/
inductive Err where
  | throw (e : Exn)
  | ub (u : UB)
  deriving DecidableEq, Repr

/-- Result of a call. For all functions of /repo/src; exceptions as in exceptions.cc:1-9. -/
abbrev Res (α : Type) := Except Err α

instance {α : Type} [DecidableEq α] : DecidableEq (Res α) := fun a b =>
  match a, b with
  | .ok x, .ok y => if h : x = y then isTrue (by rw [h]) else isFalse (by simpa using h)
  | .error x, .error y => if h : x = y then isTrue (by rw [h]) else isFalse (by simpa using h)
  | .ok _, .error _ => isFalse (by simp)
  | .error _, .ok _ => isFalse (by simp)

/-- The call has undefined behaviour. For all functions of /repo/src. -/
def IsUB {α : Type} (r : Res α) : Prop := ∃ u, r = .error (.ub u)

/-- The call throws some C++ exception. Exceptions as in exceptions.cc:1-9 and those of json.hpp and the standard library. -/
def Throws {α : Type} (r : Res α) : Prop := ∃ e, r = .error (.throw e)

/-- `int` range of the platform (32 bit two's complement). `content_t`, definetypes.cc:4, and `int` in general. -/
def InI32 (x : Int) : Prop := -2147483648 ≤ x ∧ x ≤ 2147483647

instance (x : Int) : Decidable (InI32 x) := by unfold InI32; exact inferInstance

/-- Result of a signed 32 bit addition: overflow is UB. ram.cc:43, 131, bleaching.cc:28. -/
def i32 (x : Int) : Res Int := if InI32 x then .ok x else .error (.ub .overflow)

/-- Result of a signed 64 bit operation: overflow is UB. utils.cc:31-42. -/
def i64 (x : Int) : Res Int :=
  if -9223372036854775808 ≤ x ∧ x ≤ 9223372036854775807 then .ok x else .error (.ub .overflow)

end Wis
