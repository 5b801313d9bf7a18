import Verif.Spec.ExchangeHeap
import Verif.Lemmas.ExchangeObj

/-!
# C75: data given to SPVM from Perl comes back unchanged
-/

namespace SPVM.Exch

/-! ## Numeric arrays -/

/-- The Perl values documented for `new_int_array` and its siblings: undef, an array object of that type, or a list of
defined scalars that are not references. -/
inductive Takes (k : NumK) (h : Heap) : Sv → Prop
  | undef : Takes k h .undef
  | arr {a ob} : h[a]? = some ob → ob.ty = .num k → ob.dim = 1 → Takes k h (.obj .arr (some a))
  | list {es} : (∀ v ∈ es, Plain v) → Takes k h (.aref es)

/-- **C75**: `new_byte_array` … `new_double_array` take exactly the documented values.  Every other value is an error, and no
object that existed before changes. -/
theorem c75_number_array_accepts (P : Perl) (u : Bool) (k : NumK) (h : Heap) (v : Sv) (hs : Small v) (hv : Known h v) :
    (Takes k h v ∧ ∃ w h', newNumArray P u k v h = (.ok w, h') ∧ Same h h') ∨
    (¬ Takes k h v ∧ ∃ m h', newNumArray P u k v h = (.die m, h') ∧ Same h h') := by
  cases v with
  | undef => exact .inl ⟨.undef, _, h, rfl, .refl h⟩
  | aref es =>
    by_cases hp : ∀ v ∈ es, isPlain v = true
    · exact .inl ⟨.list fun v hv => (isPlain_iff v).1 (hp v hv), _, _, newNumArray_ok h (hs es rfl) hp, .append h _⟩
    · refine .inr ⟨fun t => ?_, ?_⟩
      · cases t with
        | list t => exact hp fun v hv => (isPlain_iff v).2 (t v hv)
      · obtain ⟨m, e⟩ := newNumArray_die (P := P) (u := u) (k := k) h (hs es rfl) hp
        exact ⟨m, _, e, .append h _⟩
  | obj kd o =>
    cases kd with
    | arr =>
      obtain ⟨h1, h2⟩ := hv .arr o rfl
      cases o with
      | none => exact absurd rfl h1
      | some a =>
        have e : h[a]? = some (h[a]'(h2 a rfl)) := List.getElem?_eq_getElem (h2 a rfl)
        have hr : newNumArray P u k (.obj .arr (some a)) h =
            (if (h[a]'(h2 a rfl)).ty = .num k ∧ (h[a]'(h2 a rfl)).dim = 1 then (pure (.obj .arr (some a)) : X Sv)
             else Prog.die ": If it is an SPVM::BlessedObject::Array object, the type must be the numeric array type") h := by
          rw [newNumArray, Prog.bind_ok (deref_some e)]
        by_cases ht : (h[a]'(h2 a rfl)).ty = .num k ∧ (h[a]'(h2 a rfl)).dim = 1
        · exact .inl ⟨.arr e ht.1 ht.2, _, h, by rw [hr, if_pos ht]; rfl, .refl h⟩
        · refine .inr ⟨fun t => ?_, _, h, by rw [hr, if_neg ht]; rfl, .refl h⟩
          cases t with
          | arr e' t1 t2 =>
            rw [e] at e'; cases e'
            exact ht ⟨t1, t2⟩
    | _ => exact .inr ⟨(fun t => nomatch t), _, h, rfl, .refl h⟩
  | _ => exact .inr ⟨(fun t => nomatch t), _, h, rfl, .refl h⟩

/-- **C75**: an array made from a Perl list has the length of the list, and `to_elems` returns, position by position, the number
Perl sees in the scalar, reduced to the size of the type. -/
theorem c75_number_array_shows (P : Perl) (u : Bool) (k : NumK) (h : Heap) (es : List Sv) (hs : es.length < 2147483648)
    (hp : ∀ v ∈ es, Plain v) :
    ∃ a h' rs, newNumArray P u k (.aref es) h = (.ok (.obj .arr (some a)), h') ∧ Same h h' ∧
      toElems P (.obj .arr (some a)) h' = (.ok (.aref rs), h') ∧ AllRel (Shows P u k) es rs ∧
      arrayLength (.obj .arr (some a)) h' = (.ok (.int es.length), h') := by
  refine ⟨_, _, _, newNumArray_ok h hs (fun v hv => (isPlain_iff v).2 (hp v hv)), .append h _,
    toElems_nums (get_append_last ..) rfl rfl (by simp), ?_, ?_⟩
  · clear hs
    induction es with
    | nil => exact .nil
    | cons v vs ih => exact .cons (shows_cell (.inl (hp v (by simp)))) (ih fun w hw => hp w (by simp [hw]))
  · rw [arrayLength, objectOf, Prog.pure_bind_apply, Prog.bind_ok (deref_some (get_append_last ..))]
    rfl

theorem wraps_self {k : NumK} {n m : Int} (hn : Fits k n) (w : Wraps k n m) : m = n := by
  obtain ⟨⟨h1, h2⟩, c, rfl⟩ := w
  obtain ⟨h3, h4⟩ := hn
  cases k <;> simp only [NumK.count] at * <;> omega

/-- **C75**: integers that fit the type come back unchanged. -/
theorem c75_integers_unchanged (P : Perl) (u : Bool) (k : NumK) (hk : k.isInt) (h : Heap) (ns : List Int)
    (hs : ns.length < 2147483648) (hf : ∀ n ∈ ns, Fits k n) :
    ∃ a h', newNumArray P u k (.aref (ns.map .int)) h = (.ok (.obj .arr (some a)), h') ∧
      toElems P (.obj .arr (some a)) h' = (.ok (.aref (ns.map .int)), h') := by
  obtain ⟨a, h', rs, e1, _, e2, rel, hlen⟩ := c75_number_array_shows P u k h (ns.map .int) (by simpa using hs)
    (fun v hv => by obtain ⟨n, _, rfl⟩ := List.mem_map.1 hv; exact .int n)
  refine ⟨a, h', e1, ?_⟩
  rw [e2]
  congr 3
  clear e1 e2 hs hlen
  induction ns generalizing rs with
  | nil => cases rel; rfl
  | cons n ns ih =>
    cases rel with
    | cons hr hrs =>
      rw [List.map_cons, ih (fun m hm => hf m (by simp [hm])) _ hrs]
      congr 1
      cases hr with
      | int _ hi hw =>
        cases hi
        rw [wraps_self (hf n (by simp)) hw]
      | float _ => exact hk.elim
      | double _ => exact hk.elim

/-- **C75**: doubles come back unchanged, bit by bit; so do doubles that are exactly a `float` in a `float` array. -/
theorem c75_doubles_unchanged (P : Perl) (u : Bool) (h : Heap) (bs : List (BitVec 64)) (hs : bs.length < 2147483648) :
    (∃ a h', newNumArray P u .double (.aref (bs.map .nv)) h = (.ok (.obj .arr (some a)), h') ∧
      toElems P (.obj .arr (some a)) h' = (.ok (.aref (bs.map .nv)), h')) ∧
    ((∀ b ∈ bs, P.widen (P.narrow b) = b) →
      ∃ a h', newNumArray P u .float (.aref (bs.map .nv)) h = (.ok (.obj .arr (some a)), h') ∧
        toElems P (.obj .arr (some a)) h' = (.ok (.aref (bs.map .nv)), h')) := by
  have hp : ∀ v ∈ bs.map Sv.nv, Plain v := fun v hv => by obtain ⟨n, _, rfl⟩ := List.mem_map.1 hv; exact .nv n
  constructor
  · obtain ⟨a, h', rs, e1, _, e2, rel, hlen⟩ := c75_number_array_shows P u .double h (bs.map .nv) (by simpa using hs) hp
    refine ⟨a, h', e1, ?_⟩
    rw [e2]
    congr 3
    clear e1 e2 hs hp hlen
    induction bs generalizing rs with
    | nil => cases rel; rfl
    | cons b bs ih =>
      cases rel with
      | cons hr hrs =>
        rw [List.map_cons, ih _ hrs]
        cases hr with
        | int hi _ _ => exact hi.elim
        | double hd => cases hd; rfl
  · intro hb
    obtain ⟨a, h', rs, e1, _, e2, rel, hlen⟩ := c75_number_array_shows P u .float h (bs.map .nv) (by simpa using hs) hp
    refine ⟨a, h', e1, ?_⟩
    rw [e2]
    congr 3
    clear e1 e2 hs hp hlen
    induction bs generalizing rs with
    | nil => cases rel; rfl
    | cons b bs ih =>
      cases rel with
      | cons hr hrs =>
        rw [List.map_cons, ih (fun c hc => hb c (by simp [hc])) _ hrs]
        cases hr with
        | int hi _ _ => exact hi.elim
        | float hd => cases hd; rw [hb b (by simp)]

/-! ## Binaries -/

/-- **C75**: a binary whose length is a multiple of the element size gives an array with `length / size` elements, and `to_bin` of
that array is the binary.  Every other binary is an error. -/
theorem c75_binary (P : Perl) (k : NumK) (h : Heap) (b : List UInt8) (hs : b.length < 2147483648) :
    (b.length % k.size = 0 → ∃ a h', fromBin P k (.pv b) h = (.ok (.obj .arr (some a)), h') ∧ Same h h' ∧
      arrayLength (.obj .arr (some a)) h' = (.ok (.int (b.length / k.size : Nat)), h') ∧
      toBin (.obj .arr (some a)) h' = (.ok (.pv b), h')) ∧
    (b.length % k.size ≠ 0 → ∃ m, fromBin P k (.pv b) h = (.die m, h)) := by
  constructor
  · intro hd
    have hm : b.length / k.size * k.size = b.length := by
      rw [Nat.mul_comm]; exact Nat.mul_div_cancel' (Nat.dvd_of_mod_eq_zero hd)
    let ob : Obj := { ty := .num k, dim := 1, len := b.length / k.size, body := .nums k (bytesCells k (b.length / k.size) b), rc := 1 }
    refine ⟨h.length, h ++ [ob], ?_, .append h _, ?_, ?_⟩
    · have e : fromBin P k (.pv b) h = (do
          let a ← alloc { ty := .num k, dim := 1, len := b.length / k.size,
                          body := .nums k (bytesCells k (b.length / k.size) b), rc := 0 }
          bless .arr (some a) : X Sv) h := by
        show (if b.length < 2147483648 then _ else _ : X Sv) h = _
        rw [if_pos hs]
        show (if b.length % k.size = 0 then _ else _ : X Sv) h = _
        rw [if_pos hd]
        rfl
      rw [e]
      simp only [Prog.bind_apply, alloc, bless, retain, update, get_append_last, set_append_last, Prog.pure_apply]
      rfl
    · rw [arrayLength, objectOf, Prog.pure_bind_apply, Prog.bind_ok (deref_some (get_append_last ..))]
      rfl
    · rw [toBin, objectOf, Prog.pure_bind_apply, Prog.bind_ok (deref_some (get_append_last ..))]
      show (Prog.lift (chk32 ((b.length / k.size * k.size : Nat) : Int)) >>= _) _ = _
      rw [hm, chk32_ok (by constructor <;> omega)]
      show (if b.length / k.size ≤ (bytesCells k (b.length / k.size) b).length then _ else _ : X Sv) _ = _
      rw [if_pos (by rw [bytesCells_length]; omega)]
      show ((.ok (.pv ((cellBytes k (bytesCells k (b.length / k.size) b)).take b.length)) : Out Sv), h ++ [ob]) = _
      rw [cellBytes_bytesCells k _ _ (by omega), hm]
      simp
  · intro hd
    refine ⟨s!"The length of $binary must be divisible by {k.size}", ?_⟩
    show (if b.length < 2147483648 then _ else _ : X Sv) h = _
    rw [if_pos hs]
    show (if b.length % k.size = 0 then _ else _ : X Sv) h = _
    rw [if_neg hd]
    rfl

/-- **C75**: an array made from the `to_bin` of an array shows the same elements. -/
theorem c75_binary_copy (P : Perl) (k : NumK) (h : Heap) (a : Nat) (ob : Obj) (cells : List (Cell k)) (e : h[a]? = some ob)
    (ht : ob.ty = .num k) (hb : ob.body = .nums k cells) (hl : ob.len = cells.length)
    (hs : cells.length * k.size < 2147483648) :
    ∃ b a' h' rs, toBin (.obj .arr (some a)) h = (.ok (.pv b), h) ∧
      fromBin P k (.pv b) h = (.ok (.obj .arr (some a')), h') ∧ Same h h' ∧
      toElems P (.obj .arr (some a)) h = (.ok (.aref rs), h) ∧ toElems P (.obj .arr (some a')) h' = (.ok (.aref rs), h') := by
  have hbl : (cellBytes k cells).length = cells.length * k.size := cellBytes_length ..
  have hdiv : cells.length * k.size / k.size = cells.length := Nat.mul_div_cancel _ (size_pos k)
  refine ⟨cellBytes k cells, h.length, h ++ [{ ty := .num k, dim := 1, len := cells.length, body := .nums k cells, rc := 1 }],
    cells.map (svOf P k), ?_, ?_, .append h _, toElems_nums e ht hb hl, toElems_nums (get_append_last ..) rfl rfl rfl⟩
  · rw [toBin, objectOf, Prog.pure_bind_apply, Prog.bind_ok (deref_some e)]
    simp only [hb, ht, hl]
    rw [chk32_ok (by constructor <;> omega)]
    show (if cells.length ≤ cells.length then _ else _ : X Sv) h = _
    rw [if_pos (Nat.le_refl _)]
    show ((.ok (.pv ((cellBytes k cells).take (cells.length * k.size))) : Out Sv), h) = _
    rw [List.take_of_length_le (by omega)]
  · show (if (cellBytes k cells).length < 2147483648 then _ else _ : X Sv) h = _
    rw [if_pos (by omega)]
    show (if (cellBytes k cells).length % k.size = 0 then _ else _ : X Sv) h = _
    rw [if_pos (by rw [hbl]; exact Nat.mul_mod_left ..)]
    show (alloc { ty := .num k, dim := 1, len := (cellBytes k cells).length / k.size,
                  body := .nums k (bytesCells k ((cellBytes k cells).length / k.size) (cellBytes k cells)), rc := 0 } >>= fun a =>
          bless .arr (some a)) h = _
    rw [hbl, hdiv]
    have := bytesCells_cellBytes k cells []
    rw [List.append_nil] at this
    rw [this]
    simp only [Prog.bind_apply, alloc, bless, retain, update, get_append_last, set_append_last, Prog.pure_apply]

/-- **C75**: the same for arrays of multi-numeric values: the length is the number of bytes divided by the size of all fields. -/
theorem c75_mulnum_binary (P : Perl) (fs : List String) (hf : fs ≠ []) (k : NumK) (h : Heap) (b : List UInt8)
    (hs : b.length < 2147483648) :
    (b.length % (k.size * fs.length) = 0 → ∃ a h', mulFromBin P fs k (.pv b) h = (.ok (.obj .arr (some a)), h') ∧ Same h h' ∧
      arrayLength (.obj .arr (some a)) h' = (.ok (.int (b.length / (k.size * fs.length) : Nat)), h') ∧
      toBin (.obj .arr (some a)) h' = (.ok (.pv b), h')) ∧
    (b.length % (k.size * fs.length) ≠ 0 → ∃ m, mulFromBin P fs k (.pv b) h = (.die m, h)) := by
  have hpos : 0 < fs.length := List.length_pos_iff.2 hf
  constructor
  · intro hd
    have hn : b.length / fs.length / k.size = b.length / (k.size * fs.length) := by
      rw [Nat.div_div_eq_div_mul, Nat.mul_comm]
    have hm : fs.length * (b.length / fs.length / k.size) * k.size = b.length := by
      rw [hn, Nat.mul_comm fs.length, Nat.mul_assoc, Nat.mul_comm fs.length, Nat.mul_comm]
      exact Nat.mul_div_cancel' (Nat.dvd_of_mod_eq_zero hd)
    let n := b.length / fs.length / k.size
    let ob : Obj := { ty := .mul fs k, dim := 1, len := n, body := .nums k (bytesCells k (fs.length * n) b), rc := 1 }
    refine ⟨h.length, h ++ [ob], ?_, .append h _, ?_, ?_⟩
    · have e : mulFromBin P fs k (.pv b) h = (do
          let a ← alloc { ty := .mul fs k, dim := 1, len := n, body := .nums k (bytesCells k (fs.length * n) b), rc := 0 }
          bless .arr (some a) : X Sv) h := by
        show (if b.length < 2147483648 then _ else _ : X Sv) h = _
        rw [if_pos hs]
        show (if b.length % (k.size * fs.length) = 0 then _ else _ : X Sv) h = _
        rw [if_pos hd]
        rfl
      rw [e]
      simp only [Prog.bind_apply, alloc, bless, retain, update, get_append_last, set_append_last, Prog.pure_apply]
      rfl
    · rw [arrayLength, objectOf, Prog.pure_bind_apply, Prog.bind_ok (deref_some (get_append_last ..)), ← hn]
      rfl
    · rw [toBin, objectOf, Prog.pure_bind_apply, Prog.bind_ok (deref_some (get_append_last ..))]
      show (Prog.lift (chk32 ((fs.length * (b.length / fs.length / k.size) * k.size : Nat) : Int)) >>= _) _ = _
      rw [hm, chk32_ok (by constructor <;> omega)]
      show (if fs.length * n ≤ (bytesCells k (fs.length * n) b).length then _ else _ : X Sv) _ = _
      rw [if_pos (by rw [bytesCells_length]; omega)]
      show ((.ok (.pv ((cellBytes k (bytesCells k (fs.length * n) b)).take b.length)) : Out Sv), h ++ [ob]) = _
      rw [cellBytes_bytesCells k _ _ (Nat.le_of_eq hm), hm]
      simp
  · intro hd
    refine ⟨s!"The length of $binary must be divisible by {k.size} * {fs.length}", ?_⟩
    show (if b.length < 2147483648 then _ else _ : X Sv) h = _
    rw [if_pos hs]
    show (if b.length % (k.size * fs.length) = 0 then _ else _ : X Sv) h = _
    rw [if_neg hd]
    rfl

/-! ## Strings -/

/-- **C75**: a string comes back byte by byte. -/
theorem c75_string (P : Perl) (h : Heap) (s : List UInt8) (hs : s.length < 2147483648) :
    ∃ a h', newString P (.pv s) h = (.ok (.obj .str (some a)), h') ∧ Same h h' ∧
      strToBin (.obj .str (some a)) h' = (.ok (.pv s), h') := by
  refine ⟨_, _, newString_plain h (.pv s) hs, .append h _, ?_⟩
  rw [strToBin, objectOf, Prog.pure_bind_apply, Prog.bind_ok (deref_some (get_append_last ..))]
  rfl

/-- What Perl sees of an element of a string array: undef for undef, the same object for a string object, and for another scalar a
string object with the bytes of the scalar. -/
inductive StrShows (P : Perl) (h : Heap) : Sv → Sv → Prop
  | undef : StrShows P h .undef .undef
  | same (b) : StrShows P h (.obj .str (some b)) (.obj .str (some b))
  | bytes {v b} : Plain v → strToBin (.obj .str (some b)) h = (.ok (.pv (svPV P v)), h) → StrShows P h v (.obj .str (some b))

/-- **C75**: a list of strings, string objects and undefs comes back element by element; a list with another reference is an error. -/
theorem c75_string_array (P : Perl) (h : Heap) (es : List Sv) (hs : es.length < 2147483648) (hk : ∀ v ∈ es, Known h v)
    (hl : ∀ v ∈ es, (svPV P v).length < 2147483648) :
    ((∀ v ∈ es, v = .undef ∨ Plain v ∨ ∃ o, v = .obj .str o) →
      ∃ a h' h'' rs, newStrArray P (.aref es) h = (.ok (.obj .arr (some a)), h') ∧ Same h h' ∧
        toElems P (.obj .arr (some a)) h' = (.ok (.aref rs), h'') ∧ Same h' h'' ∧ AllRel (StrShows P h'') es rs) ∧
    ((∃ v ∈ es, ¬ (v = .undef ∨ Plain v ∨ ∃ o, v = .obj .str o)) →
      ∃ m h', newStrArray P (.aref es) h = (.die m, h') ∧ Same h h') := by
  let ob0 : Obj := { ty := .string, dim := 1, len := es.length, body := .objs (List.replicate es.length none), rc := 0 }
  have start : newStrArray P (.aref es) h = (do strLoop P h.length 0 es; bless .arr (some h.length) : X Sv) (h ++ [ob0]) := by
    show (if es.length < 2147483648 then _ else _ : X Sv) h = _
    rw [if_pos hs]
    rfl
  have e0 : (h ++ [ob0])[h.length]? = some ob0 := get_append_last ..
  have toStr : ∀ v ∈ es, (v = .undef ∨ Plain v ∨ ∃ o, v = .obj .str o) → StrElem P (h ++ [ob0]) v := by
    intro v hv hc
    rcases hc with hc | hc | ⟨o, rfl⟩
    · exact .inl hc
    · exact .inr (.inl ⟨hc, hl v hv⟩)
    · exact .inr (.inr ⟨o, rfl, ((hk _ hv) .str o rfl).2.mono (by simp)⟩)
  have fromKeeps : ∀ {h' : Heap}, Keeps h.length (h ++ [ob0]) h' → Same h h' := by
    intro h' k a ob e
    have hlt := (List.getElem?_eq_some_iff.1 e).1
    exact k a ob (by omega) (by rw [List.getElem?_append_left hlt]; exact e)
  constructor
  · intro hv
    obtain ⟨h1, os, r, e1, a1, k1, rel, l1⟩ := strLoop_ok (P := P) (os := []) e0 rfl (fun o ho => nomatch ho)
      (fun v hv' => toStr v hv' (hv v hv'))
    have hp1 : Points h1 (some h.length) := fun b hb => by cases hb; exact (List.getElem?_eq_some_iff.1 a1).1
    obtain ⟨h2, e2, s2, l2⟩ := bless_ok .arr hp1
    obtain ⟨r2, a2⟩ := s2 _ _ a1
    simp only [List.nil_append] at a2
    have hpts : ∀ o ∈ os, Points h2 o := by
      intro o ho
      have : ∀ {vs os}, AllRel (fun v o => StrIs P h1 v o ∧ Points h1 o) vs os → ∀ o ∈ os, Points h1 o := by
        intro vs os rel
        induction rel with
        | nil => intro o ho; cases ho
        | cons x _ ih => intro o ho; rcases List.mem_cons.1 ho with rfl | ho
                         · exact x.2
                         · exact ih o ho
      exact (this rel o ho).mono (by omega)
    obtain ⟨h3, e3, s3⟩ := toElems_objs (P := P) a2 rfl hpts
    refine ⟨h.length, h2, h3, _, ?_, (fromKeeps k1).trans s2, e3, s3, ?_⟩
    · rw [start, Prog.bind_ok (x := strLoop P h.length 0 es) e1]; exact e2
    · have hk' : ∀ v ∈ es, Known h v := hk
      clear e3 a2 a1 e1 hpts toStr start e0
      show AllRel (StrShows P h3) es (os.map (shown .str))
      have sall := s2.trans s3
      clear hs hl hv
      clear fromKeeps
      clear_value ob0
      induction rel with
      | nil => exact .nil
      | @cons v o vs os x _ ih =>
        refine .cons ?_ (ih ?_ ?_)
        · rcases x.1 with ⟨rfl, rfl⟩ | ⟨b, ob, hpl, rfl, hb, _, _, hbd⟩ | rfl
          · exact .undef
          · obtain ⟨r3, hb3⟩ := sall b ob hb
            refine .bytes hpl ?_
            rw [strToBin, objectOf, Prog.pure_bind_apply, Prog.bind_ok (deref_some hb3)]
            simp only [hbd]
            rfl
          · cases o with
            | none => exact absurd rfl ((hk' _ (by simp)) .str none rfl).1
            | some b => exact .same b
        · exact fun w hw => hk w (by simp [hw])
        · exact fun w hw => hk' w (by simp [hw])
  · intro ⟨w, hw, hbad⟩
    have href : ∀ v, ¬ (v = .undef ∨ Plain v ∨ ∃ o, v = .obj .str o) → refused v = true := by
      intro v hv
      cases v with
      | undef => exact absurd (.inl rfl) hv
      | int n => exact absurd (.inr (.inl (.int n))) hv
      | nv b => exact absurd (.inr (.inl (.nv b))) hv
      | pv s => exact absurd (.inr (.inl (.pv s))) hv
      | obj k o =>
        cases k with
        | str => exact absurd (.inr (.inr ⟨o, rfl⟩)) hv
        | _ => rfl
      | _ => rfl
    obtain ⟨m, h1, e1, k1⟩ := strLoop_die (P := P) (os := []) e0 rfl (fun o ho => nomatch ho)
      (fun v hv => by
        by_cases hc : v = .undef ∨ Plain v ∨ ∃ o, v = .obj .str o
        · exact .inl (toStr v hv hc)
        · exact .inr (href v hc))
      ⟨w, hw, href w hbad⟩
    exact ⟨m, h1, by rw [start]; exact Prog.bind_die e1, fromKeeps k1⟩

/-! ## Objects -/

/-- What Perl sees of the element: undef, or the same object. -/
inductive ObjShows (kd : Kind) : Sv → Sv → Prop
  | undef : ObjShows kd .undef .undef
  | same (k b) : ObjShows kd (.obj k (some b)) (.obj kd (some b))

/-- **C75**: `new_object_array` and `new_muldim_array` take exactly the lists of undefs and assignable objects, and `to_elems` of
the array returns the same objects.  Every other list is an error. -/
theorem c75_object_array (P : Perl) (W : World) (t : BT) (d : Nat) (h : Heap) (es : List Sv) (hs : es.length < 2147483648)
    (hk : ∀ v ∈ es, Known h v) :
    ((∀ v ∈ es, Assignable W t (d - 1) h v) →
      ∃ a h' h'' rs, newObjArray W t d (.aref es) h = (.ok (.obj .arr (some a)), h') ∧ Same h h' ∧
        toElems P (.obj .arr (some a)) h' = (.ok (.aref rs), h'') ∧ Same h' h'' ∧ AllRel (ObjShows (elemKind t d)) es rs) ∧
    ((∃ v ∈ es, ¬ Assignable W t (d - 1) h v) →
      ∃ m h', newObjArray W t d (.aref es) h = (.die m, h') ∧ Same h h') := by
  let ob0 : Obj := { ty := t, dim := d, len := es.length, body := .objs (List.replicate es.length none), rc := 0 }
  have start : newObjArray W t d (.aref es) h = (do objLoop W t d h.length 0 es; bless .arr (some h.length) : X Sv) (h ++ [ob0]) := by
    show (if es.length < 2147483648 then _ else _ : X Sv) h = _
    rw [if_pos hs]
    rfl
  have e0 : (h ++ [ob0])[h.length]? = some ob0 := get_append_last ..
  have fromKeeps : ∀ {h' : Heap}, Keeps h.length (h ++ [ob0]) h' → Same h h' := by
    intro h' k a ob e
    have hlt := (List.getElem?_eq_some_iff.1 e).1
    exact k a ob (by omega) (by rw [List.getElem?_append_left hlt]; exact e)
  constructor
  · intro hv
    -- the pointers
    have hos : ∃ os, AllRel (fun v o => ObjElem W t (d - 1) (h ++ [ob0]) v o ∧ o ≠ some h.length) es os ∧
        AllRel (ObjShows (elemKind t d)) es (os.map (shown (elemKind t d))) ∧ ∀ o ∈ os, Points h o := by
      clear start e0 fromKeeps hs hk
      clear_value ob0
      induction es with
      | nil => exact ⟨[], .nil, .nil, fun o ho => nomatch ho⟩
      | cons v vs ih =>
        obtain ⟨os, r1, r2, r3⟩ := ih fun w hw => hv w (by simp [hw])
        rcases hv v (by simp) with rfl | ⟨k, b, ob, rfl, hb, hi⟩
        · exact ⟨none :: os, .cons ⟨.undef, nofun⟩ r1, .cons .undef r2,
            (fun o ho => by
              rcases List.mem_cons.1 ho with rfl | ho
              · intro a ha; cases ha
              · exact r3 o ho)⟩
        · have hlt := (List.getElem?_eq_some_iff.1 hb).1
          exact ⟨some b :: os, .cons ⟨.obj k b ob (by rw [List.getElem?_append_left hlt]; exact hb) hi,
              (fun e => by cases e; omega)⟩ r1, .cons (.same k b) r2,
            (fun o ho => by
              rcases List.mem_cons.1 ho with rfl | ho
              · intro a ha; cases ha; exact hlt
              · exact r3 o ho)⟩
    obtain ⟨os, rel, rs, hpt⟩ := hos
    obtain ⟨h1, r, e1, a1, k1, l1⟩ := objLoop_ok (os := []) e0 rfl (fun o ho => nomatch ho) rel
    have hp1 : Points h1 (some h.length) := fun b hb => by cases hb; exact (List.getElem?_eq_some_iff.1 a1).1
    obtain ⟨h2, e2, s2, l2⟩ := bless_ok .arr hp1
    obtain ⟨r2, a2⟩ := s2 _ _ a1
    simp only [List.nil_append] at a2
    obtain ⟨h3, e3, s3⟩ := toElems_objs (P := P) a2 rfl (fun o ho => (hpt o ho).mono (by rw [l2, l1]; simp))
    exact ⟨h.length, h2, h3, _, by rw [start, Prog.bind_ok (x := objLoop W t d h.length 0 es) e1]; exact e2, (fromKeeps k1).trans s2, e3, s3, rs⟩
  · intro ⟨w, hw, hbad⟩
    obtain ⟨m, h1, e1, k1⟩ := objLoop_die (W := W) (t := t) (d := d) (os := []) e0 rfl (fun o ho => nomatch ho)
      (fun v hv k o e => ⟨((hk v hv) k o e).2.mono (by simp), (fun e' => by
        subst e'
        exact absurd ((hk v hv) k _ e).2 (fun p => by have := p _ rfl; omega))⟩)
      ⟨w, hw, fun o ho => hbad (by
        cases ho with
        | undef => exact .inl rfl
        | null k => exact absurd rfl ((hk _ hw) k none rfl).1
        | obj k b ob hb hi =>
          have hlt : b < h.length := ((hk _ hw) k (some b) rfl).2 b rfl
          rw [List.getElem?_append_left hlt] at hb
          exact .inr ⟨k, b, ob, rfl, hb, hi⟩)⟩
    exact ⟨m, h1, by rw [start]; exact Prog.bind_die e1, fromKeeps k1⟩

/-! ## Multi-numeric arrays -/

/-- **C75**: a list of hashes that have every field, with plain or undefined values, gives an array whose `to_elems` are hashes with
exactly the fields of the type and the numbers of the values.  A list with another element is an error. -/
theorem c75_mulnum_array (P : Perl) (W : World) (fs : List String) (k : NumK) (h : Heap) (es : List Sv) (hs : es.length < 2147483648) :
    ((∀ v ∈ es, ∃ m, v = .href m ∧ ∀ f ∈ fs, ∃ x, (m.find? (·.1 == f)).map (·.2) = some x ∧ (Plain x ∨ x = .undef)) →
      ∃ a h' rs, newMulArray P W fs k (.aref es) h = (.ok (.obj .arr (some a)), h') ∧ Same h h' ∧
        toElems P (.obj .arr (some a)) h' = (.ok (.aref rs), h') ∧
        AllRel (fun v r => ∃ m w, v = .href m ∧ r = .href w ∧ ShowsFields P k m fs w) es rs) ∧
    ((∀ v ∈ es, ∀ kd o, v ≠ .obj kd o) → (∃ v ∈ es, ∀ m, v = .href m → ∃ f ∈ fs, ∀ x ∈ m, x.1 ≠ f) →
      ∃ e h', newMulArray P W fs k (.aref es) h = (.die e, h') ∧ Same h h') := by
  let zeros : List (Cell k) := List.replicate (es.length * fs.length) 0
  let ob0 : Obj := { ty := .mul fs k, dim := 1, len := es.length, body := .nums k zeros, rc := 0 }
  have start : newMulArray P W fs k (.aref es) h = (do
      let cells ← Prog.lift (mulLoop P k fs 0 es zeros)
      update h.length fun ob => { ob with body := .nums k cells }
      bless .arr (some h.length) : X Sv) (h ++ [ob0]) := by
    show (if es.length < 2147483648 then _ else _ : X Sv) h = _
    rw [if_pos hs]
    rfl
  have hz : fs.length * 0 + fs.length * es.length = zeros.length := by simp [zeros, Nat.mul_comm]
  constructor
  · intro hv
    have hok : ∀ v ∈ es, mulOk fs v := by
      intro v hv'
      obtain ⟨m, rfl, hm⟩ := hv v hv'
      refine ⟨m, rfl, fun f hf => ?_⟩
      obtain ⟨x, hx, _⟩ := hm f hf
      rw [fetch, hx]; rfl
    have hl := mulLoop_ok (P := P) (k := k) (fs := fs) (i := 0) (cells := zeros) hok hz
    simp only [Nat.mul_zero, List.take_zero, List.nil_append] at hl
    let ob1 : Obj := { ty := .mul fs k, dim := 1, len := es.length, body := .nums k (es.flatMap (mulOf P k fs)), rc := 1 }
    have hr := readMul (P := P) (k := k) (fs := fs) (cells := es.flatMap (mulOf P k fs)) (i := 0) hok (by simp)
    refine ⟨h.length, h ++ [ob1], es.map fun v => .href (fs.zip ((mulOf P k fs v).map (svOf P k))), ?_, .append h _, ?_, ?_⟩
    · rw [start]
      simp only [Prog.bind_apply, Prog.lift_apply, hl, update, get_append_last, set_append_last, bless, retain, Prog.pure_apply]
      rfl
    · rw [toElems, objectOf, Prog.pure_bind_apply, Prog.bind_ok (deref_some (get_append_last ..))]
      simp only [ob1, hr]
      rfl
    · clear start hz hl hr hok hs
      clear_value ob1 ob0 zeros
      induction es with
      | nil => exact .nil
      | cons v vs ih =>
        obtain ⟨m, rfl, hm⟩ := hv v (by simp)
        refine .cons ⟨m, _, rfl, rfl, ?_⟩ (ih fun w hw => hv w (by simp [hw]))
        simp only [mulOf, mulVals]
        clear ih hv
        induction fs with
        | nil => exact .nil
        | cons f fs ih =>
          obtain ⟨x, hx, hxp⟩ := hm f (by simp)
          refine .cons hx ?_ (ih fun g hg => hm g (by simp [hg]))
          have : fetch m f = some x := hx
          show Shows P false k x (svOf P k (cellOf P false k ((fetch m f).getD .undef)))
          rw [this]
          exact shows_cell hxp
  · intro hno ⟨v, hv, hbad⟩
    obtain ⟨e, hl⟩ := mulLoop_die (P := P) (k := k) (fs := fs) (vs := es) (i := 0) (cells := zeros)
      (fun hall => by
        obtain ⟨m, hm, hf⟩ := hall v hv
        obtain ⟨f, hf', hx⟩ := hbad m hm
        have h1 := hf f hf'
        simp only [fetch, Option.isSome_map, List.find?_isSome] at h1
        obtain ⟨x, hxm, hxe⟩ := h1
        exact hx x hxm (by simpa using hxe)) hno hz
    exact ⟨e, h ++ [ob0], by rw [start]; simp only [Prog.bind_apply, Prog.lift_apply, hl], .append h _⟩

/-! ## Elements -/

theorem indexOf_int (P : Perl) {i : Int} (h : I32 i) : indexOf P (.int i) = i := by
  obtain ⟨h1, h2⟩ := h
  simp only [indexOf, svIV, BitVec.toInt_setWidth, BitVec.toNat_ofInt, Int.bmod_def]
  omega

/-- **C75**: `set` followed by `get` returns the number, the other elements and the other objects do not change, and an index that
is not in the array is an error that changes nothing. -/
theorem c75_get_set (P : Perl) (W : World) (k : NumK) (h : Heap) (a : Nat) (ob : Obj) (cells : List (Cell k))
    (e : h[a]? = some ob) (ht : ob.ty = .num k) (hd : ob.dim = 1) (hb : ob.body = .nums k cells) (hl : ob.len = cells.length)
    (i : Int) (hi : I32 i) (v : Sv) (hv : Plain v) :
    (0 ≤ i ∧ i < ob.len → ∃ h' w, setAt P W (.obj .arr (some a)) (.int i) v h = (.ok (), h') ∧
      getAt P (.obj .arr (some a)) (.int i) h' = (.ok w, h') ∧ Shows P false k v w ∧
      (∀ j, I32 j → j ≠ i →
        (getAt P (.obj .arr (some a)) (.int j) h').1 = (getAt P (.obj .arr (some a)) (.int j) h).1) ∧
      ∀ b, b ≠ a → h'[b]? = h[b]?) ∧
    (¬ (0 ≤ i ∧ i < ob.len) → (∃ m, setAt P W (.obj .arr (some a)) (.int i) v h = (.die m, h)) ∧
      ∃ m, getAt P (.obj .arr (some a)) (.int i) h = (.die m, h)) := by
  obtain ⟨ty, dim, len, body, rc⟩ := ob
  simp only at ht hd hb hl
  subst ht hd hb hl
  have hset : ∀ j w, I32 j → setAt P W (.obj .arr (some a)) (.int j) w h = (if 0 ≤ j ∧ j < (cells.length : Int) then
      (if j.toNat < cells.length then update a fun ob => { ob with body := .nums k (cells.set j.toNat (cellOf P false k w)) } else crash)
      else Prog.die "$index must be greatr than or equal to 0 and less than the length of the array" : X Unit) h := by
    intro j w hj
    rw [setAt, objectOf, Prog.pure_bind_apply, Prog.bind_ok (deref_some e), indexOf_int P hj]
    rfl
  have hget : ∀ (h : Heap) (cells : List (Cell k)) j r, h[a]? = some ⟨.num k, 1, cells.length, .nums k cells, r⟩ → I32 j →
      getAt P (.obj .arr (some a)) (.int j) h = (if 0 ≤ j ∧ j < (cells.length : Int) then
      (do let c ← Prog.lift (cellAt cells j.toNat); pure (svOf P k c))
      else Prog.die "$index must be greater than or equal to 0 and less than the length of the array" : X Sv) h := by
    intro h cells j r e hj
    rw [getAt, objectOf, Prog.pure_bind_apply, Prog.bind_ok (deref_some e), indexOf_int P hj]
    rfl
  have ha := (List.getElem?_eq_some_iff.1 e).1
  constructor
  · intro hr
    replace hr : 0 ≤ i ∧ i < (cells.length : Int) := hr
    have hn : i.toNat < cells.length := by omega
    let ob' : Obj := ⟨.num k, 1, cells.length, .nums k (cells.set i.toNat (cellOf P false k v)), rc⟩
    have e' : (h.set a ob')[a]? = some ⟨.num k, 1, (cells.set i.toNat (cellOf P false k v)).length,
        .nums k (cells.set i.toNat (cellOf P false k v)), rc⟩ := by
      rw [List.getElem?_set_self ha, List.length_set]
    refine ⟨h.set a ob', svOf P k (cellOf P false k v), ?_, ?_, shows_cell (.inl hv), ?_, ?_⟩
    · rw [hset i v hi, if_pos hr, if_pos hn]
      simp [update, e, ob']
    · rw [hget _ _ i rc e' hi, if_pos (by simpa using hr)]
      simp [Prog.bind_apply, Prog.lift_apply, cellAt, List.getElem?_set_self hn, Prog.pure_apply]
    · intro j hj hne
      rw [hget _ _ j rc e' hj, hget _ _ j rc e hj, List.length_set]
      by_cases hjr : 0 ≤ j ∧ j < (cells.length : Int)
      · rw [if_pos hjr, if_pos hjr]
        have : (cells.set i.toNat (cellOf P false k v))[j.toNat]? = cells[j.toNat]? :=
          List.getElem?_set_ne (by omega)
        simp only [cellAt, this, Prog.bind_apply, Prog.lift_apply]
        cases cells[j.toNat]? <;> rfl
      · rw [if_neg hjr, if_neg hjr]; rfl
    · intro b hb
      exact List.getElem?_set_ne (Ne.symm hb)
  · intro hr
    exact ⟨⟨_, by rw [hset i v hi, if_neg hr]; rfl⟩, ⟨_, by rw [hget _ _ i rc e hi, if_neg hr]; rfl⟩⟩

/-- **C75**: `set` of an object followed by `get` returns that object.  Missing: the kind of the Perl object, the type check and
the undefined element, see the theorems below. -/
theorem c75_get_set_object_partial (P : Perl) (W : World) (h : Heap) (a : Nat) (ob : Obj) (os : List (Option Nat))
    (e : h[a]? = some ob) (ht : ob.dim = 1 → ∀ k, ob.ty ≠ .num k) (hd : ob.dim ≠ 0) (hb : ob.body = .objs os)
    (hl : ob.len = os.length) (hp : ∀ o ∈ os, Points h o) (i : Int) (hi : I32 i) (hr : 0 ≤ i ∧ i < ob.len) (kd : Kind) (b : Nat)
    (obb : Obj) (eb : h[b]? = some obb) (hok : ob.dim ≠ 1 → W.isa obb.ty obb.dim ob.ty (ob.dim - 1) = true) :
    ∃ h' h'' kd', setAt P W (.obj .arr (some a)) (.int i) (.obj kd (some b)) h = (.ok (), h') ∧
      getAt P (.obj .arr (some a)) (.int i) h' = (.ok (.obj kd' (some b)), h'') ∧ Same h' h'' ∧
      ∀ (c : Nat) (obc : Obj), c ≠ a → h[c]? = some obc → ∃ r, h'[c]? = some { obc with rc := r } := by
  have hpb : Points h (some b) := fun c hc => by cases hc; exact (List.getElem?_eq_some_iff.1 eb).1
  have hn : i.toNat < os.length := by omega
  obtain ⟨h1, r, e1, a1, k1, l1⟩ := setElem_ok (i := i.toNat) e hb hn hpb hp
  obtain ⟨h2, e2, s2, _⟩ := bless_ok (h := h1) (o := some b) (if ob.dim - 1 = 0 then .cls else .arr) (hpb.mono (by omega))
  refine ⟨h1, h2, if ob.dim - 1 = 0 then .cls else .arr, ?_, ?_, s2, k1⟩
  · rw [setAt, objectOf, Prog.pure_bind_apply, Prog.bind_ok (deref_some e), indexOf_int P hi, if_pos hr]
    obtain ⟨ty, dim, len, body, rc⟩ := ob
    simp only at *
    by_cases h1d : dim = 1
    · subst h1d
      cases ty with
      | num k => exact absurd rfl (ht rfl k)
      | _ => exact e1
    · have hisa : isa W (some b) ty (dim - 1) h = (.ok true, h) := by
        rw [isa, Prog.bind_ok (deref_some eb), hok h1d]; rfl
      have : (do let ok ← isa W (some b) ty (dim - 1)
                 if ok then setElem a i.toNat (some b)
                 else Prog.die "$elem must be assigned to the element of the array" : X Unit) h = (.ok (), h1) := by
        rw [Prog.bind_ok hisa]; exact e1
      match dim, h1d with
      | 0, _ => exact absurd rfl hd
      | dim + 2, _ => cases ty <;> exact this
  · rw [getAt, objectOf, Prog.pure_bind_apply, Prog.bind_ok (deref_some a1), indexOf_int P hi, if_pos hr]
    obtain ⟨ty, dim, len, body, rc⟩ := ob
    simp only at *
    have : (do let x ← Prog.lift (cellAt (os.set i.toNat (some b)) i.toNat)
               bless (if dim - 1 = 0 then .cls else .arr) x : X Sv) h1 = (.ok (.obj (if dim - 1 = 0 then .cls else .arr) (some b)), h2) := by
      simp only [cellAt, List.getElem?_set_self hn, Prog.bind_apply, Prog.lift_apply]
      exact e2
    by_cases h1d : dim = 1
    · subst h1d
      cases ty with
      | num k => exact absurd rfl (ht rfl k)
      | _ => exact this
    · match dim, h1d with
      | 0, _ => exact absurd rfl hd
      | dim + 2, _ => cases ty <;> exact this

/-! ## Where the code breaks the property -/

/-- A Perl whose conversions are simple; the values do not matter for what follows. -/
def somePerl : Perl where
  nvIV b := b
  nvUV b := b
  pvIV _ := 0
  pvUV _ := 0
  pvNV _ := 0
  intNV n := BitVec.ofInt 64 n
  intPV _ := [48]
  nvPV _ := [48]
  refIV := 4096
  refNV := 4096
  narrow b := b.setWidth 32
  widen b := b.setWidth 64

/-- A program where an object is assignable to its own type and to `object`. -/
def someWorld : World where
  isa t d t' d' := (t' = .any ∧ d' = 0) ∨ (t = t' ∧ d = d')

/-- **C75 violated**: an element that is not a scalar is reported, but the array made for the list stays, with no owner. -/
theorem c75_error_frees_violated : ∃ m ob, newNumArray somePerl false .int (.aref [.int 1, .undef]) [] = (.die m, [ob]) ∧ ob.rc = 0 :=
  ⟨_, _, rfl, rfl⟩

/-- **C75 violated**: the index is cut to 32 bits: 4294967296 reads element 0. -/
theorem c75_index_violated : getAt somePerl (.obj .arr (some 0)) (.int 4294967296)
    [⟨.num .int, 1, 1, .nums .int [7], 1⟩] = (.ok (.int 7), [⟨.num .int, 1, 1, .nums .int [7], 1⟩]) := rfl

/-- **C75 violated**: `set` stores a `Point` in an array of strings. -/
theorem c75_set_type_violated : ∃ h', setAt somePerl someWorld (.obj .arr (some 0)) (.int 0) (.obj .cls (some 1))
      [⟨.string, 1, 1, .objs [none], 1⟩, ⟨.cls "Point", 0, 0, .inst, 1⟩] = (.ok (), h') ∧
    h'[0]? = some ⟨.string, 1, 1, .objs [some 1], 1⟩ ∧ h'[1]? = some ⟨.cls "Point", 0, 0, .inst, 2⟩ :=
  ⟨_, rfl, rfl, rfl⟩

/-- **C75 violated**: `set` of a number or of a string in an array of objects is undefined behaviour. -/
theorem c75_set_scalar_violated (n : Int) (s : List UInt8) :
    (setAt somePerl someWorld (.obj .arr (some 0)) (.int 0) (.int n) [⟨.string, 1, 1, .objs [none], 1⟩]).1 = .ub ∧
    (setAt somePerl someWorld (.obj .arr (some 0)) (.int 0) (.pv s) [⟨.string, 1, 1, .objs [none], 1⟩]).1 = .ub :=
  ⟨rfl, rfl⟩

/-- **C75 violated**: `get` of a string of a string array is an object that is not a string object, and `get` of an undefined element
is not undef. -/
theorem c75_get_kind_violated :
    (getAt somePerl (.obj .arr (some 0)) (.int 0) [⟨.string, 1, 2, .objs [some 1, none], 1⟩, ⟨.string, 0, 1, .str [65], 1⟩]).1 =
      .ok (.obj .cls (some 1)) ∧
    (getAt somePerl (.obj .arr (some 0)) (.int 1) [⟨.string, 1, 2, .objs [some 1, none], 1⟩, ⟨.string, 0, 1, .str [65], 1⟩]).1 =
      .ok (.obj .cls none) := ⟨rfl, rfl⟩

/-- **C75 violated**: `get` and `set` on an array of multi-numeric values are undefined behaviour. -/
theorem c75_get_mulnum_violated (v : Sv) :
    (getAt somePerl (.obj .arr (some 0)) (.int 0) [⟨.mul ["x"] .int, 1, 1, .nums .int [7], 1⟩]).1 = .ub ∧
    (setAt somePerl someWorld (.obj .arr (some 0)) (.int 0) v [⟨.mul ["x"] .int, 1, 1, .nums .int [7], 1⟩]).1 = .ub := by
  refine ⟨rfl, ?_⟩
  cases v with
  | obj k o => cases o <;> rfl
  | _ => rfl

/-- **C75 violated**: `to_elems` of a `string[][]` shows its arrays as string objects, and `to_elems` of an `object[]` shows its
strings as class objects. -/
theorem c75_to_elems_kind_violated :
    (toElems somePerl (.obj .arr (some 0)) [⟨.string, 2, 1, .objs [some 1], 1⟩, ⟨.string, 1, 0, .objs [], 1⟩]).1 =
      .ok (.aref [.obj .str (some 1)]) ∧
    (toElems somePerl (.obj .arr (some 0)) [⟨.any, 1, 1, .objs [some 1], 1⟩, ⟨.string, 0, 1, .str [65], 1⟩]).1 =
      .ok (.aref [.obj .cls (some 1)]) := ⟨rfl, rfl⟩

/-- **C75 violated**: `to_bin` of an `int` array with 2²⁹ elements, which is 2 gigabytes, overflows. -/
theorem c75_to_bin_large_violated : ∃ cells : List (Cell .int), cells.length = 536870912 ∧
    (toBin (.obj .arr (some 0)) [⟨.num .int, 1, 536870912, .nums .int cells, 1⟩]).1 = .ub := by
  refine ⟨List.replicate 536870912 0, List.length_replicate, ?_⟩
  generalize List.replicate 536870912 0 = cells
  rfl

/-- **C75 violated**: `new_address_object` rejects every `Address` object. -/
theorem c75_address_violated (h : Heap) (a : Nat) (ob : Obj) (e : h[a]? = some ob) (_ht : ob.ty = .cls "Address") (hd : ob.dim = 0) :
    ∃ m, newAddress (.obj .cls (some a)) h = (.die m, h) := by
  refine ⟨": If it is an SPVM::BlessedObject::Class object, it must be the Address type", ?_⟩
  rw [newAddress, Prog.bind_ok (deref_some e), if_neg (by rw [hd]; exact fun x => nomatch x.2)]
  rfl

/-! ## The hypotheses can be met -/

example : Takes .int [] (.aref [.int 1, .pv [49]]) := .list (by
  intro v hv
  simp only [List.mem_cons, List.not_mem_nil, or_false] at hv
  rcases hv with rfl | rfl
  · exact .int 1
  · exact .pv _)
example : ¬ Takes .int [] (.aref [.undef]) := by
  intro t
  cases t with
  | list t => exact nomatch t .undef (by simp)
example : Known [⟨.string, 0, 1, .str [65], 1⟩] (.obj .str (some 0)) := by
  intro k o e; cases e; exact ⟨nofun, fun a ha => by cases ha; decide⟩
example : Small (.aref [.int 1]) := by intro es e; cases e; decide
example : Fits .byte (-128) ∧ Fits .byte 127 ∧ ¬ Fits .byte 128 := by
  refine ⟨⟨?_, ?_⟩, ⟨?_, ?_⟩, fun ⟨_, x⟩ => absurd x ?_⟩ <;> decide
example : (newNumArray somePerl false .byte (.aref [.int 200]) [] ).1 = .ok (.obj .arr (some 0)) := rfl
example : (toElems somePerl (.obj .arr (some 0)) (newNumArray somePerl false .byte (.aref [.int 200]) []).2).1 =
    .ok (.aref [.int (-56)]) := rfl
example : (fromBin somePerl .short (.pv [1, 2]) []).1 = .ok (.obj .arr (some 0)) := rfl
example : (toElems somePerl (.obj .arr (some 0)) (fromBin somePerl .short (.pv [1, 2]) []).2).1 = .ok (.aref [.int 513]) := rfl
example : (mulFromBin somePerl ["x", "y"] .byte (.pv [1, 2]) []).1 = .ok (.obj .arr (some 0)) := rfl
example : ∃ m, (mulFromBin somePerl ["x", "y"] .byte (.pv [1, 2, 3]) []).1 = .die m := ⟨_, rfl⟩
example : (toElems somePerl (.obj .arr (some 0))
    (newMulArray somePerl someWorld ["x", "y"] .int (.aref [.href [("y", .int 2), ("x", .int 1)]]) []).2).1 =
    .ok (.aref [.href [("x", .int 1), ("y", .int 2)]]) := rfl
example : Assignable someWorld (.cls "Point") 0 [⟨.cls "Point", 0, 0, .inst, 1⟩] (.obj .cls (some 0)) :=
  .inr ⟨.cls, 0, _, rfl, rfl, rfl⟩
example : ¬ Assignable someWorld (.cls "Point") 0 [⟨.string, 0, 1, .str [65], 1⟩] (.obj .str (some 0)) := by
  rintro (x | ⟨k, b, ob, e1, e2, e3⟩)
  · exact nomatch x
  · cases e1; cases e2; exact absurd e3 (by decide)

end SPVM.Exch
