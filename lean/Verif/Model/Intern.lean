import Verif.Model.CHash
/-!
# String interning in the compiler (lib/SPVM/Builder/src/spvm_string.c)

A pointer to an `SPVM_STRING` is a number: 0 is `NULL`, `n + 1` is the `n`-th string allocated.
-/
namespace SPVM
namespace Intern
open VM (Bytes)

/-- The parts of `SPVM_COMPILER` that `SPVM_STRING_new` uses: the strings allocated so far, `constant_strings` and
`constant_string_symtable` (for `SPVM_STRING_new_global`: `global_strings` and `global_string_symtable`). -/
structure St where
  heap : List Bytes
  strings : CList.CList Nat
  symtable : CHash.CHash Nat
deriving DecidableEq, Repr

/-- `SPVM_STRING_new`, spvm_string.c 10-27 (and `SPVM_STRING_new_global`, 29-46, with the other table and list). -/
def new (hf : Bytes → Out Int) (st : St) (value : Bytes) : Out (Nat × St) := do
  let found ← CHash.get hf 0 st.symtable value
  if found ≠ 0 then .ok (found, st)
  else do
    let _ ← add32 value.length 1
    let ptr := st.heap.length + 1
    let strings ← CList.push 0 st.strings ptr
    let symtable ← CHash.set hf st.symtable value ptr
    .ok (ptr, { heap := st.heap ++ [value], strings := strings, symtable := symtable })

/-- Successive calls; the pointers returned. -/
def run (hf : Bytes → Out Int) (st : St) : List Bytes → Out (List Nat × St)
  | [] => .ok ([], st)
  | v :: vs => do
    let (p, st) ← new hf st v
    let (ps, st) ← run hf st vs
    .ok (p :: ps, st)

/-- The start of the compiler: empty list and table (`SPVM_COMPILER_new`, spvm_compiler.c; capacities are parameters). -/
def init (listCapacity tableCapacity : Int) : Out St := do
  let l ← CList.new 0 listCapacity
  let h ← CHash.new tableCapacity
  .ok { heap := [], strings := l, symtable := h }

/-- The bytes of the string a pointer points to. -/
def deref (st : St) (p : Nat) : Option Bytes := if p = 0 then none else st.heap[p - 1]?

end Intern
end SPVM
