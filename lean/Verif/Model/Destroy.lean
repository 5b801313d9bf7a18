import Verif.Spec.Destroy

/-!
# The events of a run (lib/SPVM/Builder/src/spvm_api.c)

`goL` is `Heap.go` (the code, see Model/Heap.lean) that also notes the events; that it does the same to the heap is proved
(`goL_go` in Props/Destroy.lean).
-/

namespace SPVM.Destroy

open SPVM.Heap

/-- `SPVM_API_assign_object` and what it calls, spvm_api.c 4899-5271, and the operations of a program, with the events.  The event
`destroy` stands for the call of `destroy_method`, spvm_api.c 5207, `freed` and `kept` for the two ways of spvm_api.c 5254-5266. -/
def goL (D : Dtors) : Nat → Cmd → Heap → List Ev → Res (Heap × List Ev)
  | 0, _, _, _ => .limit
  | f + 1, .assign l object, h, lg => do
    let (released, h) ← h.store l object
    match released with
    | none => .ok (h, lg)
    | some a => goL D f (.release a) h lg
  | f + 1, .release a, h, lg => do
    let o ← h.obj a
    if o.count > 1 then do
      let h ← h.addCount a (-1)
      .ok (h, lg)
    else do
      let (h, lg) ← goL D f (.dtor a o.cls) h lg
      let o' ← h.obj a
      let (h, lg) ← goL D f (.clearSlots a 0 o'.slots.length) h lg
      let h' ← h.finish a
      .ok (h', lg ++ [if (h'.objs a).isSome then .kept a o.cls else .freed a o.cls])
  | _ + 1, .clearSlots _ _ 0, h, lg => .ok (h, lg)
  | f + 1, .clearSlots a i (n + 1), h, lg => do
    let (h, lg) ← goL D f (.assign (.slot a i) none) h lg
    goL D f (.clearSlots a (i + 1) n) h lg
  | f + 1, .dtor a cls, h, lg =>
    if D.hasDtor cls then do
      let (h1, lg) ← goL D f (.push a) h (lg ++ [.destroy a h])
      let (h2, lg) ← goL D f (.ops (D.body a h1)) h1 lg
      goL D f (.leave h.top h.top) h2 lg
    else .ok (h, lg)
  | f + 1, .push a, h, lg => do
    let h ← h.growMortals
    let (h, lg) ← goL D f (.assign (.mortal h.top) (some a)) h lg
    .ok ({ h with top := h.top + 1 }, lg)
  | f + 1, .leave k i, h, lg =>
    if i < h.top then do
      let (h, lg) ← goL D f (.assign (.mortal i) none) h lg
      goL D f (.leave k (i + 1)) h lg
    else .ok ({ h with top := k }, lg)
  | f + 1, .weaken l, h, lg => do
    let c ← h.read l
    match c with
    | none => .ok (h, lg)
    | some p =>
      if p.weak then .ok (h, lg)
      else do
        let o ← h.obj p.addr
        if o.count = 1 then do
          let h ← h.write l none
          goL D f (.release p.addr) h lg
        else do
          let h ← h.write l (some ⟨p.addr, true⟩)
          let h ← h.addCount p.addr (-1)
          let h ← h.setBackrefs p.addr (fun ls => ls ++ [l])
          .ok (h, lg)
  | f + 1, .op (.new x n cls), h, lg =>
    if x < h.vars.length then
      goL D f (.assign (.var x) (some h.next)) (h.alloc n cls) (lg ++ [.created h.next cls])
    else .ok (h, lg)
  | f + 1, .op (.move x y), h, lg =>
    if x < h.vars.length then goL D f (.assign (.var x) (h.val y)) h lg else .ok (h, lg)
  | f + 1, .op (.clear x), h, lg =>
    if x < h.vars.length then goL D f (.assign (.var x) none) h lg else .ok (h, lg)
  | f + 1, .op (.getField x y i), h, lg =>
    match h.slotOf y i with
    | none => .ok (h, lg)
    | some (_, c) =>
      if x < h.vars.length then goL D f (.assign (.var x) (c.map Ptr.addr)) h lg else .ok (h, lg)
  | f + 1, .op (.setField y i x), h, lg =>
    match h.slotOf y i with
    | none => .ok (h, lg)
    | some (a, _) => goL D f (.assign (.slot a i) (h.val x)) h lg
  | f + 1, .op (.clearField y i), h, lg =>
    match h.slotOf y i with
    | none => .ok (h, lg)
    | some (a, _) => goL D f (.assign (.slot a i) none) h lg
  | f + 1, .op (.weaken y i), h, lg =>
    match h.slotOf y i with
    | none => .ok (h, lg)
    | some (a, _) => goL D f (.weaken (.slot a i)) h lg
  | _ + 1, .op (.unweaken y i), h, lg =>
    match h.slotOf y i with
    | none => .ok (h, lg)
    | some (a, _) => do
      let h ← h.unweaken (.slot a i)
      .ok (h, lg)
  | f + 1, .op (.pushMortal y), h, lg =>
    match h.val y with
    | none => .ok (h, lg)
    | some a => goL D f (.push a) h lg
  | f + 1, .op (.scope body), h, lg => do
    let (h1, lg) ← goL D f (.ops body) h lg
    goL D f (.leave h.top h.top) h1 lg
  | _ + 1, .ops [], h, lg => .ok (h, lg)
  | f + 1, .ops (o :: rest), h, lg => do
    let (h1, lg) ← goL D f (.op o) h lg
    goL D f (.ops rest) h1 lg

/-- A program and its events. -/
def runL (D : Dtors) (fuel : Nat) (os : List Op) (h : Heap) : Res (Heap × List Ev) := goL D fuel (.ops os) h []

end SPVM.Destroy
