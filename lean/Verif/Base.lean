/-!
# Base of the SPVM model

Outcomes, the state-and-outcome monad used for object methods, checked `int` arithmetic and the
bounds-checked element access of the virtual machine.
-/

namespace SPVM

/-- The outcome of running SPVM code.

* `ok a`   – normal return;
* `die m`  – an SPVM exception was thrown (`env->die`, `die`, or a VM check that sets `error_id`);
* `ub`     – C undefined behaviour was reached (signed overflow, out-of-bounds access, ...).

Models: the `int32_t error_id` / return-value protocol of all native functions and VM operations
(lib/SPVM/Builder/include/spvm_implement.h, e.g. lines 211-220; lib/SPVM/Builder/src/spvm_api.c 2641-2670). -/
inductive Out (α : Type u) where
  | ok (a : α)
  | die (msg : String)
  | ub
deriving DecidableEq, Repr

namespace Out

/-- Sequencing: exceptions and undefined behaviour propagate. -/
def bind (x : Out α) (f : α → Out β) : Out β :=
  match x with
  | ok a => f a
  | die m => die m
  | ub => ub

instance : Monad Out where
  pure := Out.ok
  bind := Out.bind

@[simp] theorem pure_eq (a : α) : (pure a : Out α) = ok a := rfl
@[simp] theorem ok_bind (a : α) (f : α → Out β) : (ok a >>= f) = f a := rfl
@[simp] theorem die_bind (m : String) (f : α → Out β) : ((die m : Out α) >>= f) = die m := rfl
@[simp] theorem ub_bind (f : α → Out β) : ((ub : Out α) >>= f) = ub := rfl
@[simp] theorem map_ok (a : α) (f : α → β) : f <$> (ok a) = ok (f a) := rfl
@[simp] theorem map_die (m : String) (f : α → β) : f <$> (die m : Out α) = die m := rfl
@[simp] theorem map_ub (f : α → β) : f <$> (ub : Out α) = ub := rfl

instance : LawfulMonad Out := LawfulMonad.mk'
  (id_map := by intro α x; cases x <;> rfl)
  (pure_bind := by intros; rfl)
  (bind_assoc := by intro α β γ x f g; cases x <;> rfl)
  (bind_pure_comp := by intro α β f x; cases x <;> rfl)

/-- Did the code throw an SPVM exception? -/
def isDie : Out α → Bool
  | die _ => true
  | _ => false

@[simp] theorem isDie_ok (a : α) : (ok a).isDie = false := rfl
@[simp] theorem isDie_die (m : String) : (die m : Out α).isDie = true := rfl
@[simp] theorem isDie_ub : (ub : Out α).isDie = false := rfl

end Out

/-- A method on an object with state `σ`: it returns an outcome *and* the state the object is left in,
also when it throws. -/
def Prog (σ : Type) (α : Type) : Type := σ → Out α × σ

namespace Prog

def bind (x : Prog σ α) (f : α → Prog σ β) : Prog σ β := fun s =>
  match x s with
  | (.ok a, s') => f a s'
  | (.die m, s') => (.die m, s')
  | (.ub, s') => (.ub, s')

instance : Monad (Prog σ) where
  pure a := fun s => (.ok a, s)
  bind := Prog.bind

/-- Read the object state. -/
def get : Prog σ σ := fun s => (.ok s, s)
/-- Replace the object state. -/
def set (s' : σ) : Prog σ Unit := fun _ => (.ok (), s')
/-- Throw. -/
def die (m : String) : Prog σ α := fun s => (.die m, s)
/-- Run state-free code. -/
def lift (x : Out α) : Prog σ α := fun s => (x, s)

instance : MonadLift Out (Prog σ) := ⟨lift⟩

@[simp] theorem pure_apply (a : α) (s : σ) : (pure a : Prog σ α) s = (.ok a, s) := rfl
@[simp] theorem get_apply (s : σ) : (get : Prog σ σ) s = (.ok s, s) := rfl
@[simp] theorem set_apply (s s' : σ) : (set s' : Prog σ Unit) s = (.ok (), s') := rfl
@[simp] theorem die_apply (m : String) (s : σ) : (die m : Prog σ α) s = (.die m, s) := rfl
@[simp] theorem lift_apply (x : Out α) (s : σ) : (lift x : Prog σ α) s = (x, s) := rfl
@[simp] theorem liftM_eq (x : Out α) : (liftM x : Prog σ α) = lift x := rfl
@[simp] theorem monadLift_eq (x : Out α) : (MonadLift.monadLift x : Prog σ α) = lift x := rfl
@[simp] theorem monadLift_eq' (x : Out α) : (monadLift x : Prog σ α) = lift x := rfl

theorem bind_apply (x : Prog σ α) (f : α → Prog σ β) (s : σ) :
    (x >>= f) s = match x s with
      | (.ok a, s') => f a s'
      | (.die m, s') => (.die m, s')
      | (.ub, s') => (.ub, s') := rfl

theorem bind_ok {x : Prog σ α} {f : α → Prog σ β} {s s' : σ} {a : α} (h : x s = (.ok a, s')) :
    (x >>= f) s = f a s' := by simp [bind_apply, h]

theorem bind_die {x : Prog σ α} {f : α → Prog σ β} {s s' : σ} {m : String} (h : x s = (.die m, s')) :
    (x >>= f) s = (.die m, s') := by simp [bind_apply, h]

@[simp] theorem pure_bind_apply (a : α) (f : α → Prog σ β) : ((pure a : Prog σ α) >>= f) = f a := rfl
@[simp] theorem get_bind_apply (f : σ → Prog σ β) (s : σ) : (get >>= f) s = f s s := rfl
@[simp] theorem set_bind_apply (s' : σ) (f : Unit → Prog σ β) (s : σ) : (set s' >>= f) s = f () s' := rfl
@[simp] theorem die_bind_apply (m : String) (f : α → Prog σ β) (s : σ) : ((die m : Prog σ α) >>= f) s = (.die m, s) := rfl
@[simp] theorem lift_ok_bind (a : α) (f : α → Prog σ β) (s : σ) : ((lift (.ok a) : Prog σ α) >>= f) s = f a s := rfl
@[simp] theorem lift_die_bind (m : String) (f : α → Prog σ β) (s : σ) : ((lift (.die m) : Prog σ α) >>= f) s = (.die m, s) := rfl
@[simp] theorem lift_ub_bind (f : α → Prog σ β) (s : σ) : ((lift .ub : Prog σ α) >>= f) s = (.ub, s) := rfl

@[simp] theorem ite_apply (c : Prop) [Decidable c] (x y : Prog σ α) (s : σ) :
    (if c then x else y) s = if c then x s else y s := by split <;> rfl

end Prog

/-! ## `int` arithmetic -/

/-- The value fits `int32_t`. -/
def I32 (x : Int) : Prop := -2147483648 ≤ x ∧ x ≤ 2147483647
instance (x : Int) : Decidable (I32 x) := by unfold I32; infer_instance

/-- The value fits `int64_t`. -/
def I64 (x : Int) : Prop := -9223372036854775808 ≤ x ∧ x ≤ 9223372036854775807
instance (x : Int) : Decidable (I64 x) := by unfold I64; infer_instance

/-- Result of a signed 32-bit C operation: undefined outside the range. -/
def chk32 (x : Int) : Out Int := if I32 x then .ok x else .ub
/-- Result of a signed 64-bit C operation: undefined outside the range. -/
def chk64 (x : Int) : Out Int := if I64 x then .ok x else .ub

/-- `SPVM_IMPLEMENT_ADD_INT`, spvm_implement.h line 187. -/
def add32 (a b : Int) : Out Int := chk32 (a + b)
/-- `SPVM_IMPLEMENT_SUBTRACT_INT`, spvm_implement.h line 195. -/
def sub32 (a b : Int) : Out Int := chk32 (a - b)
/-- `SPVM_IMPLEMENT_MULTIPLY_INT`, spvm_implement.h line 203. -/
def mul32 (a b : Int) : Out Int := chk32 (a * b)

theorem chk32_ok {x : Int} (h : I32 x) : chk32 x = .ok x := by simp [chk32, h]
theorem chk64_ok {x : Int} (h : I64 x) : chk64 x = .ok x := by simp [chk64, h]
theorem add32_ok {a b : Int} (h : I32 (a + b)) : add32 a b = .ok (a + b) := chk32_ok h
theorem sub32_ok {a b : Int} (h : I32 (a - b)) : sub32 a b = .ok (a - b) := chk32_ok h
theorem mul32_ok {a b : Int} (h : I32 (a * b)) : mul32 a b = .ok (a * b) := chk32_ok h

/-! ## Arrays

An array object is modelled by the list of its elements; `undef` by `none` where it matters. -/

/-- The length operator `@$array` (`SPVM_IMPLEMENT_ARRAY_LENGTH`, spvm_implement.h 1092-1101) of a defined array. -/
def alen (a : List α) : Int := a.length

@[simp] theorem alen_nonneg (a : List α) : 0 ≤ alen a := by simp [alen]

def msgArrayUndef : String := "An array access failed. The array must be defined."
def msgIndexRange : String := "An array access failed. The index is out of range."

/-- `SPVM_IMPLEMENT_GET_ARRAY_ELEMENT_*` on a defined array, spvm_implement.h 785-916:
throws unless `0 <= index < length`.  `ub` is the memory access outside the block, which the check excludes. -/
def aGet (a : List α) (i : Int) : Out α :=
  if i < 0 ∨ i ≥ alen a then .die msgIndexRange
  else match a[i.toNat]? with
    | some x => .ok x
    | none => .ub

/-- `SPVM_IMPLEMENT_SET_ARRAY_ELEMENT_*` on a defined array, spvm_implement.h 918-1090. -/
def aSet (a : List α) (i : Int) (x : α) : Out (List α) :=
  if i < 0 ∨ i ≥ alen a then .die msgIndexRange
  else if i.toNat < a.length then .ok (a.set i.toNat x) else .ub

theorem aGet_ok {a : List α} {i : Int} (h0 : 0 ≤ i) (h1 : i.toNat < a.length) :
    aGet a i = .ok a[i.toNat] := by
  unfold aGet alen
  rw [if_neg (by omega), List.getElem?_eq_getElem h1]

theorem aSet_ok {a : List α} {i : Int} {x : α} (h0 : 0 ≤ i) (h1 : i.toNat < a.length) :
    aSet a i x = .ok (a.set i.toNat x) := by
  unfold aSet alen
  rw [if_neg (by omega), if_pos h1]

def msgNewArrayLen : String := "A new operator to create an array failed. The length must be a non-negative integer."
def msgNewArrayMem : String := "A new operator to create an array failed. Memory allocation failed."

/-- `new T[length]` (`SPVM_IMPLEMENT_NEW_INT_ARRAY` etc., spvm_implement.h 578-747): throws for a negative length and
when the allocation fails; elements are zero-initialised (`SPVM_API_new_int_array_no_mortal`, spvm_api.c 3890-3978,
memory from `calloc` in spvm_allocator.c 30-43).  `limit` is the largest length the system can allocate; it is a
parameter so that allocation failure is a possible outcome. -/
def newArray (limit : Nat) (zero : α) (length : Int) : Out (List α) :=
  if length ≥ 0 then
    if length.toNat ≤ limit then .ok (List.replicate length.toNat zero) else .die msgNewArrayMem
  else .die msgNewArrayLen

/-- Two lists have the same length and related elements position by position. -/
inductive AllRel (R : α → β → Prop) : List α → List β → Prop
  | nil : AllRel R [] []
  | cons {a b as bs} : R a b → AllRel R as bs → AllRel R (a :: as) (b :: bs)

end SPVM
