import Verif.Model.Exchange

/-! # Lemmas about the data exchange with Perl -/

namespace SPVM.Exch

theorem isPlain_iff (v : Sv) : isPlain v = true ↔ Plain v := by
  constructor
  · cases v <;> simp [isPlain] <;> constructor
  · rintro (_ | _ | _) <;> rfl

theorem setWidth_toInt {n m : Nat} (h : m ≤ n) (v : BitVec n) : (v.setWidth m).toInt = v.toInt.bmod (2 ^ m) := by
  rw [BitVec.toInt_setWidth, BitVec.toInt_eq_toNat_bmod, Int.bmod_bmod_of_dvd]
  exact_mod_cast Nat.pow_dvd_pow 2 h

theorem wraps_bmod {k : NumK} {n m : Int} {p : Nat} (hp : k.count = p) (hpos : 0 < p) (h : ∃ c : Int, m = n + c * p) :
    Wraps k n (m.bmod p) := by
  obtain ⟨c, rfl⟩ := h
  refine ⟨⟨?_, ?_⟩, ?_⟩
  · have := Int.le_bmod (x := n + c * p) (m := p) hpos
    rw [hp]; omega
  · have := Int.bmod_lt (x := n + c * p) (m := p) hpos
    rw [hp]; omega
  · rw [hp]
    refine ⟨c - (n + c * p).bdiv p, ?_⟩
    have := Int.bmod_add_bdiv (n + c * p) p
    have e : (c - (n + c * p).bdiv p) * (p : Int) = c * p - p * (n + c * p).bdiv p := by
      rw [Int.sub_mul, Int.mul_comm ((n + c * p).bdiv p)]
    rw [e]; omega

/-- The 64-bit integer of a scalar agrees with the integer Perl sees. -/
theorem svInt_of {P : Perl} {u : Bool} {v : Sv} (hv : Plain v ∨ v = .undef) :
    ∃ n, IntOf P u v n ∧ ∃ c : Int, (if u then svUV P v else svIV P v).toInt = n + c * 18446744073709551616 := by
  rcases hv with hv | rfl
  · cases hv with
    | int n =>
      refine ⟨n, .int n, -(n.bdiv 18446744073709551616), ?_⟩
      have e : (if u = true then svUV P (.int n) else svIV P (.int n)) = BitVec.ofInt 64 n := by cases u <;> rfl
      rw [e, BitVec.toInt_ofInt]
      have := Int.bmod_add_bdiv n 18446744073709551616
      show n.bmod 18446744073709551616 = _
      omega
    | nv b => exact ⟨_, .nv b, 0, by cases u <;> simp [svIV, svUV]⟩
    | pv s => exact ⟨_, .pv s, 0, by cases u <;> simp [svIV, svUV]⟩
  · exact ⟨0, .undef, 0, by cases u <;> simp [svIV, svUV]⟩

theorem svNV_of {P : Perl} {v : Sv} (hv : Plain v ∨ v = .undef) : DoubleOf P v (svNV P v) := by
  rcases hv with hv | rfl
  · cases hv <;> constructor
  · constructor

/-- An element shows what the specification says. -/
theorem shows_cell {P : Perl} {u : Bool} {k : NumK} {v : Sv} (hv : Plain v ∨ v = .undef) :
    Shows P u k v (svOf P k (cellOf P u k v)) := by
  obtain ⟨n, hn, c, hc⟩ := svInt_of (P := P) (u := u) hv
  cases k with
  | float => exact .float (svNV_of hv)
  | double => exact .double (svNV_of hv)
  | byte =>
    refine .int trivial hn ?_
    rw [cellOf, setWidth_toInt (by omega), hc]
    exact wraps_bmod rfl (by decide) ⟨c * 72057594037927936, by omega⟩
  | short =>
    refine .int trivial hn ?_
    rw [cellOf, setWidth_toInt (by omega), hc]
    exact wraps_bmod rfl (by decide) ⟨c * 281474976710656, by omega⟩
  | int =>
    refine .int trivial hn ?_
    rw [cellOf, setWidth_toInt (by omega), hc]
    exact wraps_bmod rfl (by decide) ⟨c * 4294967296, by omega⟩
  | long =>
    refine .int trivial hn ?_
    rw [cellOf]
    have := wraps_bmod (k := .long) (n := n) (p := 18446744073709551616) rfl (by decide) ⟨c, hc⟩
    rwa [show (if u then svUV P v else svIV P v).toInt.bmod 18446744073709551616 = (if u then svUV P v else svIV P v).toInt from
      BitVec.toInt_bmod_cancel _] at this

/-! ## The heap -/

theorem get_append_last (h : Heap) (ob : Obj) : (h ++ [ob])[h.length]? = some ob := by simp

theorem set_append_last (h : Heap) (ob ob' : Obj) : (h ++ [ob]).set h.length ob' = h ++ [ob'] := by
  rw [List.set_append_right _ _ (by omega)]; simp

theorem deref_some {h : Heap} {a : Nat} {ob : Obj} (e : h[a]? = some ob) : deref (some a) h = (.ok ob, h) := by
  simp [deref, e]

theorem bless_some {h : Heap} {a : Nat} {ob : Obj} (k : Kind) (e : h[a]? = some ob) :
    bless k (some a) h = (.ok (.obj k (some a)), h.set a { ob with rc := ob.rc + 1 }) := by
  simp [bless, retain, update, e, Prog.bind_apply]

/-! ## Numbers -/

theorem take_set_succ {l : List α} {i : Nat} (h : i < l.length) (x : α) : (l.set i x).take (i + 1) = l.take i ++ [x] := by
  rw [List.take_succ_eq_append_getElem (by simpa using h)]
  simp [List.take_set_of_le]

/-- The elements are converted one by one if all are plain scalars. -/
theorem numLoop_ok {P : Perl} {u : Bool} {k : NumK} {es : List Sv} : ∀ {i : Nat} {cells : List (Cell k)},
    i + es.length = cells.length → (∀ v ∈ es, isPlain v = true) →
    numLoop P u k i es cells = .ok (cells.take i ++ es.map (cellOf P u k)) := by
  induction es with
  | nil =>
    intro i cells h _
    simp only [List.length_nil] at h
    simp [numLoop, List.take_of_length_le (show cells.length ≤ i by omega)]
  | cons v vs ih =>
    intro i cells h hall
    simp only [List.length_cons] at h
    rw [numLoop, if_pos (hall v (by simp)), if_pos (show i < cells.length by omega),
      ih (by simp; omega) (fun w hw => hall w (by simp [hw])), take_set_succ (by omega)]
    simp

/-- An element that is not a plain scalar is an error. -/
theorem numLoop_die {P : Perl} {u : Bool} {k : NumK} {es : List Sv} : ∀ {i : Nat} {cells : List (Cell k)},
    i + es.length = cells.length → (¬ ∀ v ∈ es, isPlain v = true) → ∃ m, numLoop P u k i es cells = .die m := by
  induction es with
  | nil => intro i cells _ h; exact absurd (by simp) h
  | cons v vs ih =>
    intro i cells h hall
    simp only [List.length_cons] at h
    rw [numLoop]
    by_cases hv : isPlain v = true
    · rw [if_pos hv, if_pos (show i < cells.length by omega)]
      refine ih (by simp; omega) (fun h' => hall fun w hw => ?_)
      rcases List.mem_cons.1 hw with rfl | hw
      · exact hv
      · exact h' w hw
    · rw [if_neg hv]
      exact ⟨_, rfl⟩

theorem cellAt_drop {l : List α} {i : Nat} {x : α} {xs : List α} (h : l.drop i = x :: xs) :
    cellAt l i = .ok x ∧ l.drop (i + 1) = xs := by
  have h0 : l[i]? = some x := by
    have := congrArg List.head? h
    simpa [List.head?_drop] using this
  refine ⟨by simp [cellAt, h0], ?_⟩
  rw [← List.drop_drop, h]; rfl

/-- Reading the numbers from position `i` on. -/
theorem readNums {P : Perl} {k : NumK} {cells xs : List (Cell k)} {i : Nat} (h : cells.drop i = xs) :
    readAll (fun i => (cellAt cells i).bind fun c => .ok (svOf P k c)) xs.length i = .ok (xs.map (svOf P k)) := by
  induction xs generalizing i with
  | nil => rfl
  | cons x xs ih =>
    obtain ⟨h1, h2⟩ := cellAt_drop h
    rw [List.length_cons, readAll, h1]
    show (readAll _ xs.length (i + 1)).bind _ = _
    rw [ih h2]
    rfl

/-- The result of making a numeric array from a list of plain scalars. -/
theorem newNumArray_ok {P : Perl} {u : Bool} {k : NumK} {es : List Sv} (h : Heap) (hlen : es.length < 2147483648)
    (hp : ∀ v ∈ es, isPlain v = true) :
    newNumArray P u k (.aref es) h = (.ok (.obj .arr (some h.length)),
      h ++ [{ ty := .num k, dim := 1, len := es.length, body := .nums k (es.map (cellOf P u k)), rc := 1 }]) := by
  have hl := numLoop_ok (P := P) (u := u) (k := k) (es := es) (i := 0) (cells := List.replicate es.length 0) (by simp) hp
  simp only [List.take_zero, List.nil_append] at hl
  simp only [newNumArray, if_pos hlen, Prog.bind_apply, alloc, Prog.lift_apply, hl, update, get_append_last,
    set_append_last, bless, retain, Prog.pure_apply]

/-- The error of making a numeric array: the block stays. -/
theorem newNumArray_die {P : Perl} {u : Bool} {k : NumK} {es : List Sv} (h : Heap) (hlen : es.length < 2147483648)
    (hp : ¬ ∀ v ∈ es, isPlain v = true) :
    ∃ m, newNumArray P u k (.aref es) h = (.die m,
      h ++ [{ ty := .num k, dim := 1, len := es.length, body := .nums k (List.replicate es.length 0), rc := 0 }]) := by
  obtain ⟨m, hl⟩ := numLoop_die (P := P) (u := u) (k := k) (es := es) (i := 0) (cells := List.replicate es.length 0) (by simp) hp
  exact ⟨m, by simp only [newNumArray, if_pos hlen, Prog.bind_apply, alloc, Prog.lift_apply, hl]⟩

/-- What `to_elems` returns for an array of numbers. -/
theorem toElems_nums {P : Perl} {h : Heap} {a : Nat} {ob : Obj} {k : NumK} {cells : List (Cell k)}
    (e : h[a]? = some ob) (ht : ob.ty = .num k) (hb : ob.body = .nums k cells) (hl : ob.len = cells.length) :
    toElems P (.obj .arr (some a)) h = (.ok (.aref (cells.map (svOf P k))), h) := by
  have hr := readNums (P := P) (k := k) (cells := cells) (i := 0) rfl
  simp only [List.drop_zero] at hr
  rw [toElems, objectOf, Prog.pure_bind_apply, Prog.bind_ok (deref_some e)]
  simp only [hb, ht, hl, hr]
  rfl

/-! ## Bytes -/

theorem bytesOf_length (n x : Nat) : (bytesOf n x).length = n := by
  induction n generalizing x with
  | zero => rfl
  | succ n ih => simp [bytesOf, ih]

theorem ofBytes_bytesOf (n x : Nat) (h : x < 256 ^ n) : ofBytes (bytesOf n x) = x := by
  induction n generalizing x with
  | zero => simp at h; simp [bytesOf, ofBytes, h]
  | succ n ih =>
    rw [bytesOf, ofBytes, ih (x / 256) (by rw [Nat.pow_succ] at h; omega), UInt8.toNat_ofNat']
    omega

theorem ofBytes_lt (bs : List UInt8) : ofBytes bs < 256 ^ bs.length := by
  induction bs with
  | nil => simp [ofBytes]
  | cons b bs ih =>
    have := b.toNat_lt
    rw [ofBytes, List.length_cons, Nat.pow_succ]; omega

theorem bytesOf_ofBytes (bs : List UInt8) : bytesOf bs.length (ofBytes bs) = bs := by
  induction bs with
  | nil => rfl
  | cons b bs ih =>
    have hb := b.toNat_lt
    rw [List.length_cons, bytesOf, ofBytes, show (b.toNat + 256 * ofBytes bs) % 256 = b.toNat by omega,
      show (b.toNat + 256 * ofBytes bs) / 256 = ofBytes bs by omega, ih]
    simp

theorem pow256 (n : Nat) : 2 ^ (8 * n) = 256 ^ n := by rw [Nat.pow_mul]

theorem size_pos (k : NumK) : 0 < k.size := by cases k <;> decide

theorem cellBytes_cons (k : NumK) (c : Cell k) (cs : List (Cell k)) :
    cellBytes k (c :: cs) = bytesOf k.size c.toNat ++ cellBytes k cs := rfl

theorem cellBytes_length (k : NumK) (cs : List (Cell k)) : (cellBytes k cs).length = cs.length * k.size := by
  induction cs with
  | nil => simp [cellBytes]
  | cons c cs ih => rw [cellBytes_cons, List.length_append, bytesOf_length, ih, List.length_cons, Nat.succ_mul]; omega

theorem bytesCells_cellBytes (k : NumK) (cs : List (Cell k)) (rest : List UInt8) :
    bytesCells k cs.length (cellBytes k cs ++ rest) = cs := by
  induction cs with
  | nil => rfl
  | cons c cs ih =>
    rw [cellBytes_cons, List.length_cons, bytesCells, List.append_assoc,
      List.take_append_of_le_length (by rw [bytesOf_length]; omega), List.take_of_length_le (by rw [bytesOf_length]; omega),
      List.drop_append_of_le_length (by rw [bytesOf_length]; omega), List.drop_of_length_le (by rw [bytesOf_length]; omega),
      List.nil_append, ih, ofBytes_bytesOf _ _ (by rw [← pow256]; exact c.isLt)]
    simp

theorem cellBytes_bytesCells (k : NumK) (n : Nat) (bs : List UInt8) (h : n * k.size ≤ bs.length) :
    cellBytes k (bytesCells k n bs) = bs.take (n * k.size) := by
  induction n generalizing bs with
  | zero => simp [bytesCells, cellBytes]
  | succ n ih =>
    have hs : k.size ≤ bs.length := by rw [Nat.succ_mul] at h; omega
    have ht : (bs.take k.size).length = k.size := by simp; omega
    have hlt : ofBytes (bs.take k.size) < 2 ^ (8 * k.size) := by
      have := ofBytes_lt (bs.take k.size)
      rw [ht] at this
      rwa [pow256]
    rw [bytesCells, cellBytes_cons, ih _ (by simp; rw [Nat.succ_mul] at h; omega), BitVec.toNat_ofNat, Nat.mod_eq_of_lt hlt]
    have h2 : bytesOf k.size (ofBytes (bs.take k.size)) = bs.take k.size := by
      have := bytesOf_ofBytes (bs.take k.size)
      rwa [ht] at this
    rw [h2, Nat.succ_mul, Nat.add_comm, List.take_add]

theorem bytesCells_length (k : NumK) (n : Nat) (bs : List UInt8) : (bytesCells k n bs).length = n := by
  induction n generalizing bs with
  | zero => rfl
  | succ n ih => simp [bytesCells, ih]

/-! ## Multi-numeric arrays -/

/-- The numbers of one element, in the order of the fields. -/
def mulVals (P : Perl) (k : NumK) (fs : List String) (es : List (String × Sv)) : List (Cell k) :=
  fs.map fun f => cellOf P false k ((fetch es f).getD .undef)

theorem mulVals_length (P : Perl) (k : NumK) (fs : List String) (es : List (String × Sv)) :
    (mulVals P k fs es).length = fs.length := by simp [mulVals]

theorem fieldLoop_ok {P : Perl} {k : NumK} {n i : Nat} {es : List (String × Sv)} : ∀ {fs : List String} {fi : Nat}
    {cells : List (Cell k)}, (∀ f ∈ fs, (fetch es f).isSome) → n * i + fi + fs.length ≤ cells.length →
    fieldLoop P k n i es fi fs cells =
      .ok (cells.take (n * i + fi) ++ (mulVals P k fs es ++ cells.drop (n * i + fi + fs.length))) := by
  intro fs
  induction fs with
  | nil => intro fi cells _ _; simp [fieldLoop, mulVals]
  | cons f fs ih =>
    intro fi cells hf hl
    simp only [List.length_cons] at hl
    obtain ⟨v, hv⟩ := Option.isSome_iff_exists.1 (hf f (by simp))
    simp only [fieldLoop, hv]
    rw [if_pos (show n * i + fi < cells.length by omega), ih (fun g hg => hf g (by simp [hg])) (by simp; omega),
      show n * i + (fi + 1) = n * i + fi + 1 by omega, take_set_succ (by omega),
      List.drop_set_of_lt (by omega)]
    simp only [mulVals, List.map_cons, hv, Option.getD_some, List.length_cons, List.append_assoc, List.cons_append,
      List.nil_append]
    rw [show n * i + fi + 1 + fs.length = n * i + fi + (fs.length + 1) by omega]

theorem fieldLoop_die {P : Perl} {k : NumK} {n i : Nat} {es : List (String × Sv)} : ∀ {fs : List String} {fi : Nat}
    {cells : List (Cell k)}, (¬ ∀ f ∈ fs, (fetch es f).isSome) → n * i + fi + fs.length ≤ cells.length →
    ∃ m, fieldLoop P k n i es fi fs cells = .die m := by
  intro fs
  induction fs with
  | nil => intro fi cells h _; exact absurd (by simp) h
  | cons f fs ih =>
    intro fi cells hf hl
    simp only [List.length_cons] at hl
    cases hv : fetch es f with
    | none => rw [fieldLoop, hv]; exact ⟨_, rfl⟩
    | some v =>
      simp only [fieldLoop, hv]
      rw [if_pos (show n * i + fi < cells.length by omega)]
      refine ih (fun h' => hf fun g hg => ?_) (by simp; omega)
      rcases List.mem_cons.1 hg with rfl | hg
      · simp [hv]
      · exact h' g hg

/-- An element of the Perl list is a hash with all the fields. -/
def mulOk (fs : List String) (v : Sv) : Prop := ∃ es, v = .href es ∧ ∀ f ∈ fs, (fetch es f).isSome

/-- The numbers of an element. -/
def mulOf (P : Perl) (k : NumK) (fs : List String) : Sv → List (Cell k)
  | .href es => mulVals P k fs es
  | _ => []

theorem mulLoop_ok {P : Perl} {k : NumK} {fs : List String} : ∀ {vs : List Sv} {i : Nat} {cells : List (Cell k)},
    (∀ v ∈ vs, mulOk fs v) → fs.length * i + fs.length * vs.length = cells.length →
    mulLoop P k fs i vs cells = .ok (cells.take (fs.length * i) ++ vs.flatMap (mulOf P k fs)) := by
  intro vs
  induction vs with
  | nil =>
    intro i cells _ hl
    simp only [List.length_nil, Nat.mul_zero, Nat.add_zero] at hl
    simp [mulLoop, hl]
  | cons v vs ih =>
    intro i cells hv hl
    obtain ⟨es, rfl, hf⟩ := hv v (by simp)
    simp only [List.length_cons, Nat.mul_add, Nat.mul_one] at hl
    have h1 := fieldLoop_ok (P := P) (k := k) (n := fs.length) (i := i) (fi := 0) (cells := cells) hf (by omega)
    simp only [Nat.add_zero] at h1
    simp only [mulLoop, h1, Out.bind]
    have hlen : (cells.take (fs.length * i) ++ (mulVals P k fs es ++ cells.drop (fs.length * i + fs.length))).length = cells.length := by
      simp [mulVals_length]; omega
    rw [ih (fun w hw => hv w (by simp [hw])) (by rw [hlen, Nat.mul_add, Nat.mul_one]; omega)]
    rw [Nat.mul_add, Nat.mul_one, ← List.append_assoc, List.take_append_of_le_length (by simp [mulVals_length]; omega),
      List.take_of_length_le (by simp [mulVals_length]; omega)]
    simp [mulOf]

theorem mulLoop_die {P : Perl} {k : NumK} {fs : List String} : ∀ {vs : List Sv} {i : Nat} {cells : List (Cell k)},
    (¬ ∀ v ∈ vs, mulOk fs v) → (∀ v ∈ vs, ∀ kd o, v ≠ .obj kd o) → fs.length * i + fs.length * vs.length = cells.length →
    ∃ m, mulLoop P k fs i vs cells = .die m := by
  intro vs
  induction vs with
  | nil => intro i cells h _ _; exact absurd (by simp) h
  | cons v vs ih =>
    intro i cells hv hno hl
    simp only [List.length_cons, Nat.mul_add, Nat.mul_one] at hl
    by_cases hh : ∃ es, v = .href es
    · obtain ⟨es, rfl⟩ := hh
      by_cases hf : ∀ f ∈ fs, (fetch es f).isSome
      · have h1 := fieldLoop_ok (P := P) (k := k) (n := fs.length) (i := i) (fi := 0) (cells := cells) hf (by omega)
        simp only [mulLoop, h1, Out.bind]
        refine ih (fun h' => hv fun w hw => ?_) (fun w hw => hno w (by simp [hw])) (by simp [mulVals_length, Nat.mul_add]; omega)
        rcases List.mem_cons.1 hw with rfl | hw
        · exact ⟨es, rfl, hf⟩
        · exact h' w hw
      · obtain ⟨m, h1⟩ := fieldLoop_die (P := P) (k := k) (n := fs.length) (i := i) (fi := 0) (cells := cells) hf (by omega)
        exact ⟨m, by simp only [mulLoop, h1, Out.bind]⟩
    · cases v with
      | href es => exact absurd ⟨es, rfl⟩ hh
      | obj kd o => exact absurd rfl (hno _ (by simp) kd o)
      | _ => exact ⟨_, rfl⟩

theorem fieldsOf_eq {P : Perl} {k : NumK} {cells : List (Cell k)} {n i : Nat} : ∀ {fs : List String} {fi : Nat} {xs rest : List (Cell k)},
    xs.length = fs.length → cells.drop (n * i + fi) = xs ++ rest →
    fieldsOf P k cells n i fi fs = .ok (fs.zip (xs.map (svOf P k))) := by
  intro fs
  induction fs with
  | nil => intro fi xs rest hx _; rfl
  | cons f fs ih =>
    intro fi xs rest hx hd
    cases xs with
    | nil => simp at hx
    | cons x xs =>
      obtain ⟨h1, h2⟩ := cellAt_drop hd
      rw [fieldsOf, h1]
      show (fieldsOf P k cells n i (fi + 1) fs).bind _ = _
      rw [ih (by simpa using hx) h2]
      rfl

theorem readMul {P : Perl} {k : NumK} {fs : List String} {cells : List (Cell k)} : ∀ {vs : List Sv} {i : Nat},
    (∀ v ∈ vs, mulOk fs v) → cells.drop (fs.length * i) = vs.flatMap (mulOf P k fs) →
    readAll (fun i => (fieldsOf P k cells fs.length i 0 fs).bind fun r => .ok (Sv.href r)) vs.length i =
      .ok (vs.map fun v => .href (fs.zip ((mulOf P k fs v).map (svOf P k)))) := by
  intro vs
  induction vs with
  | nil => intro i _ _; rfl
  | cons v vs ih =>
    intro i hv hd
    have hlen : (mulOf P k fs v).length = fs.length := by
      obtain ⟨es, rfl, _⟩ := hv v (by simp)
      exact mulVals_length ..
    rw [List.length_cons, readAll, fieldsOf_eq hlen (by simpa using hd)]
    show (readAll _ vs.length (i + 1)).bind _ = _
    rw [ih (fun w hw => hv w (by simp [hw])) ?_]
    · rfl
    · rw [Nat.mul_add, Nat.mul_one, ← List.drop_drop, hd, List.flatMap_cons,
        List.drop_append_of_le_length (by omega), List.drop_of_length_le (by omega)]
      rfl

end SPVM.Exch
