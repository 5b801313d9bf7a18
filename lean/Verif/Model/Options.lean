import Verif.Model.HashTyped
import Verif.Model.ArrayOps
import Verif.Model.Sort
import Verif.Spec.Options
/-!
# Option arrays: Fn->merge_options, Fn->check_option_names, Sort->sort_options_asc
-/
namespace SPVM.Options
open Spec.HashTyped (Val)
open VM (Bytes)

def msgEven1 : String := "The length of the options1 $options1 must be an even number."
def msgEven2 : String := "The length of the options2 $options2 must be an even number."
def msgOptions : String := "The options $options must be defined."
def msgEven : String := "The length of the options $options must be an even number."
def msgKeyUndef : String := "The key of $options must be defined."
def msgKeyType : String := "The key of $options must be string type."
/-- The cast of an object of another type to string, spvm_implement.h 60. -/
def msgCast : String := "An assignment failed. The right operand does not satisfy type assignability."

/-- The message `The "$option_name" option is not available.`, Fn.spvm 1245.  Bytes are shown as the characters with these
codes. -/
def msgNotAvailable (name : Bytes) : String :=
  "The \"" ++ String.ofList (name.map fun b => Char.ofNat b.toNat) ++ "\" option is not available."

/-- `Fn->merge_options`, Fn.spvm 1186-1208. -/
def mergeOptions (limit : Nat) (options1 options2 : Option (List (Option α))) : Out (List (Option α)) :=
  let options1 := options1.getD []
  let options2 := options2.getD []
  if ¬ options1.length % 2 = 0 then .die msgEven1
  else if ¬ options2.length % 2 = 0 then .die msgEven2
  else ArrayOps.merge limit none (some options1) (some options2)

/-- `(string)$object` for an object of type `object` (`SPVM_IMPLEMENT_TYPE_CONVERSION`, see C58). -/
def castString : Option Val → Out (Option Bytes)
  | none => .ok none
  | some (.string s) => .ok (some s)
  | some _ => .die msgCast

/-- The loop over the available names, Fn.spvm 1237-1239. -/
def addNames (hash : Bytes → BitVec 64) (limit : Nat) : List (Option Bytes) → Prog (Hash Val) Unit
  | [] => pure ()
  | n :: ns => do
    Hash.setInt hash limit n 1
    addNames hash limit ns

/-- The loop over the options, Fn.spvm 1241-1247. -/
def checkLoop (hash : Bytes → BitVec 64) (h : Hash Val) (options : List (Option Val)) : Nat → Int → Out Unit
  | 0, _ => .ub
  | f + 1, i =>
    if i < alen options then do
      let e ← aGet options i
      let name ← castString e
      let v ← (Hash.get hash name h).1
      match v with
      | none => .die (msgNotAvailable (name.getD []))
      | some _ => do
        let i ← add32 i 2
        checkLoop hash h options f i
    else .ok ()

/-- `Fn->check_option_names`, Fn.spvm 1230-1248.  `hash` is the hash function of the new `Hash` object. -/
def checkOptionNames (hash : Bytes → BitVec 64) (limit : Nat) (options : Option (List (Option Val)))
    (available : Option (List (Option Bytes))) : Out Unit :=
  match options with
  | none => .ok ()
  | some options => do
    let h ← Hash.new hash limit (fun _ => none) none
    match available with
    | none => .die msgArrayUndef
    | some available =>
      match addNames hash limit available h with
      | (.ok _, h) => checkLoop hash h options (options.length + 1) 0
      | (.die m, _) => .die m
      | (.ub, _) => .ub

/-- A name and its value: the two-element array `{$name => $value}`, Sort.spvm 706. -/
abbrev Pair := Bytes × Option Val

/-- The loop that collects the pairs, Sort.spvm 696-707. -/
def pairLoop (limit : Nat) (options : List (Option Val)) : Nat → Int → Prog (ObjList Pair) Unit
  | 0, _ => Prog.lift .ub
  | f + 1, i =>
    if i < alen options then do
      let e ← Prog.lift (aGet options i)
      match e with
      | none => Prog.die msgKeyUndef
      | some (.string name) => do
        let j ← Prog.lift (add32 i 1)
        let value ← Prog.lift (aGet options j)
        ObjList.push limit (fun _ => true) (some (name, value))
        let i ← Prog.lift (add32 i 2)
        pairLoop limit options f i
      | some _ => Prog.die msgKeyType
    else pure ()

/-- The comparator, Sort.spvm 711-716. -/
def pairCmp : MSort.Cmp Unit Pair := fun t x y => (VM.stringCmp (some x.1) (some y.1), t)

/-- The loop that writes the pairs back, Sort.spvm 718-726.  `accept` belongs to the array of options. -/
def writeBack (accept : Val → Bool) : List Pair → Int → Prog (List (Option Val)) Unit
  | [], _ => pure ()
  | p :: ps, index => do
    let a ← Prog.get
    let a ← Prog.lift (VM.setElementChecked accept a index (some (.string p.1)))
    Prog.set a
    let j ← Prog.lift (add32 index 1)
    let a ← Prog.lift (VM.setElementChecked accept a j p.2)
    Prog.set a
    let index ← Prog.lift (add32 index 2)
    writeBack accept ps index

/-- The elements of an array without `undef`. -/
def defined : List (Option α) → Option (List α)
  | [] => some []
  | none :: _ => none
  | some x :: xs => (defined xs).map (x :: ·)

/-- `Sort->sort_options_asc`, Sort.spvm 683-727: the outcome and the array afterwards.
Simplification: the array of pairs is checked once for `undef`, on which the comparator would throw; it has none. -/
def sortOptionsAsc (limit : Nat) (accept : Val → Bool) (options : Option (List (Option Val))) : Out Unit × List (Option Val) :=
  match options with
  | none => (.die msgOptions, [])
  | some options =>
    if ¬ options.length % 2 = 0 then (.die msgEven, options)
    else
      match (do
        let list ← ObjList.new limit (fun _ => true) none
        ((do
          pairLoop limit options (options.length + 1) 0
          ObjList.toArray limit (fun _ => true) : Prog (ObjList Pair) (List (Option Pair))) list).1 : Out (List (Option Pair))) with
      | .ok keyValues =>
        match defined keyValues with
        | none => (.die msgArrayUndef, options)
        | some keyValues =>
          match MSort.sort limit ([], none) (some pairCmp) (some keyValues) () with
          | (.ok _, keyValues, _) => writeBack accept keyValues 0 options
          | (.die m, _, _) => (.die m, options)
          | (.ub, _, _) => (.ub, options)
      | .die m => (.die m, options)
      | .ub => (.ub, options)

end SPVM.Options
