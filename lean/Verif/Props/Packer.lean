import Verif.Lemmas.Packer
/-!
# C28: `pack` and `unpack`

`le`: the system is little endian.  The hexadecimal letters `h` and `H` are not in the specification's templates; what the code
does with them is in the `_violated` theorems.
-/
set_option linter.unusedSimpArgs false
namespace SPVM
namespace Packer
open VM (Bytes)
open Spec.Packer (Num Value Item Order Count Letter)

/-- `pack` of objects that fit the template. -/
theorem pack_ok (le : Bool) {limit : Nat} (hlim : limit ≤ 2147483646) (h4 : 4 ≤ limit) {items : List Item} {vs : List Value}
    (extra : List Value) (ht : AllRel (fun i v => i.Takes v) items vs) (ho : ∀ i ∈ items, i.Ok) (hw : ∀ v ∈ vs, v.Wf)
    (hlen : (Spec.Packer.text items).length ≤ 2147483647) (hs : 2 * (storedAll le items vs).length ≤ limit) :
    pack le limit (some (Spec.Packer.text items)) (some (vs ++ extra)) = .ok (storedAll le items vs) := by
  have hl : items.length = vs.length := by
    clear ho hw hs hlen
    induction ht with
    | nil => rfl
    | cons _ _ ih => simp [ih]
  unfold pack
  simp only [parseTemplate_ok items ho hlen, Out.ok_bind]
  rw [if_neg (by simp; omega)]
  obtain ⟨b, k, e, hr⟩ := StrBuf.new_ok hlim none (-1) (by simp; omega)
  rw [e, Out.ok_bind]
  obtain ⟨b', r', e', hr'⟩ := packLoop_append le hlim ht ho hw hr (by simpa using hs) [] extra
  simp only [List.append_nil] at e'
  rw [Prog.bind_ok (show packLoop le limit (items.map specOf) (vs ++ extra) b = (.ok (), b') from e'), StrBuf.toString_ok hlim hr']
  simp

/-- **C28** (round trip): for every template whose only `*` is the last item and all objects of the types it asks for, `unpack`
gives back the objects `pack` was given, cut or filled up with zeros to the counts of the template.  Objects behind the last
item are not packed. -/
theorem c28_roundtrip (le : Bool) (limit : Nat) (items : List Item) (vs extra : List Value)
    (hlim : limit ≤ 2147483646) (h4 : 4 ≤ limit) (ht : AllRel (fun i v => i.Takes v) items vs)
    (ho : ∀ i ∈ items, i.Ok) (hw : ∀ v ∈ vs, v.Wf) (hst : Spec.Packer.StarLast items)
    (hlen : (Spec.Packer.text items).length ≤ 2147483647) (hs : 2 * (Spec.Packer.pack le items vs).length ≤ limit) :
    ∃ bin, pack le limit (some (Spec.Packer.text items)) (some (vs ++ extra)) = .ok bin ∧
      bin.length = (Spec.Packer.pack le items vs).length ∧
      unpack le limit (some (Spec.Packer.text items)) (some bin) = .ok (Spec.Packer.unpacked items vs) := by
  have hsl := spec_length le ht ho hw
  refine ⟨_, pack_ok le hlim h4 extra ht ho hw hlen (by omega), hsl, ?_⟩
  unfold unpack
  simp only [parseTemplate_ok items ho hlen, Out.ok_bind]
  have := unpackLoop_ok le hlim (by omega) ht ho hw hst [] (by simp; omega)
  simpa using this

/-- **C28** (exact counts): an object that has the length its item asks for comes back unchanged. -/
theorem c28_exact (i : Item) (v : Value) (h : ∀ n, i.count = .times n → (∀ s, v = .text s → s.length = n) ∧
    ∀ t es, v = .array t es → es.length = n) : i.fit v = v := by
  cases v with
  | text s =>
    cases hc : i.count with
    | times n => have := (h n hc).1 s rfl; simp [Item.fit, hc, Spec.Packer.resize, ← this]
    | _ => simp [Item.fit, hc]
  | array t es =>
    cases hc : i.count with
    | times n => have := (h n hc).2 t es rfl; simp [Item.fit, hc, Spec.Packer.resize, ← this]
    | _ => simp [Item.fit, hc]
  | _ => rfl

/-- **C28** (layout; partial: an order mark with a count is only covered for one-byte elements, see `c28_order_violated`): the
binary data are the objects one after the other, each number in the byte order asked for. -/
theorem c28_layout_partial (le : Bool) (limit : Nat) (items : List Item) (vs extra : List Value)
    (hlim : limit ≤ 2147483646) (h4 : 4 ≤ limit) (ht : AllRel (fun i v => i.Takes v) items vs)
    (ho : ∀ i ∈ items, i.Ok) (hw : ∀ v ∈ vs, v.Wf)
    (hord : ∀ i ∈ items, i.order = .system ∨ i.count = .one ∨ i.letter = .a ∨ i.letter = .c ∨ i.letter = .C)
    (hlen : (Spec.Packer.text items).length ≤ 2147483647) (hs : 2 * (Spec.Packer.pack le items vs).length ≤ limit) :
    pack le limit (some (Spec.Packer.text items)) (some (vs ++ extra)) = .ok (Spec.Packer.pack le items vs) := by
  have hsl := spec_length le ht ho hw
  rw [pack_ok le hlim h4 extra ht ho hw hlen (by omega)]
  have hall : (storedAll le items vs).length ≤ 2147483647 := by omega
  clear hlen hs hsl
  congr 1
  induction ht with
  | nil => rfl
  | @cons i v is vs h1 h2 ih =>
    have hl := stored_length le h1 (hw v (by simp)) (ho i (by simp))
    simp only [storedAll, List.length_append] at hall
    simp only [storedAll, Spec.Packer.pack]
    rw [stored_eq le h1 (hw v (by simp)) (ho i (by simp)) (by omega) (hord i (by simp)),
      ih (fun x hx => ho x (by simp [hx])) (fun x hx => hw x (by simp [hx])) (fun x hx => hord x (by simp [hx])) (by omega)]

/-- **C28** (`unpack` of any bytes): for every template whose only `*` is last and every binary data, `unpack` throws exactly when
the data are shorter than the template needs; otherwise the objects have the types of the template and packing them again gives the
data back, up to bytes behind the last item.  (The template must not need more bytes than an `int` counts, see
`c28_count_overflow_violated`.) -/
theorem c28_unpack (le : Bool) (limit : Nat) (items : List Item) (b : Bytes) (hlim : limit ≤ 2147483646) (h4 : 4 ≤ limit)
    (ho : ∀ i ∈ items, i.Ok) (hst : Spec.Packer.StarLast items) (hlen : (Spec.Packer.text items).length ≤ 2147483647)
    (hneed : Spec.Packer.need items ≤ 2147483647) (hs : 2 * b.length ≤ limit) :
    (Spec.Packer.need items ≤ b.length ∧ ∃ vs packed rest, unpack le limit (some (Spec.Packer.text items)) (some b) = .ok vs ∧
      AllRel (fun i v => i.Takes v) items vs ∧ (∀ v ∈ vs, v.Wf) ∧
      pack le limit (some (Spec.Packer.text items)) (some vs) = .ok packed ∧ b = packed ++ rest) ∨
    (b.length < Spec.Packer.need items ∧ (unpack le limit (some (Spec.Packer.text items)) (some b)).isDie) := by
  have h := unpackLoop_total le hlim (by omega) items ho hst [] b (by simp; omega) (by simp; omega)
  have hu : unpack le limit (some (Spec.Packer.text items)) (some b) = unpackLoop le limit ([] ++ b) (items.map specOf) (0 : Nat) := by
    unfold unpack
    simp only [parseTemplate_ok items ho hlen, Out.ok_bind]
    rfl
  rw [hu]
  rcases h with ⟨h1, vs, r, h2, h3, h4', _, h6⟩ | ⟨h1, m, h2⟩
  · refine .inl ⟨h1, vs, _, r, h6, h3, h4', ?_, h2⟩
    have hl : (storedAll le items vs).length ≤ b.length := by rw [h2]; simp
    have := pack_ok le hlim h4 [] h3 ho h4' hlen (by omega)
    simpa using this
  · refine .inr ⟨h1, ?_⟩
    rw [show unpackLoop le limit ([] ++ b) (items.map specOf) (0 : Nat) = .die m from h2]
    rfl

/-! ## Errors -/

/-- An object the item does not take makes `pack` throw. -/
theorem packPart_die (le : Bool) (limit : Nat) {i : Item} {v : Value} (ht : ¬ i.Takes v) (ho : i.Ok) (hw : v.Wf) :
    ∃ m, packPart le limit (specOf i) v = .die m := by
  unfold packPart
  cases hk : i.letter.num with
  | some t =>
    have hkind : (specOf i).kind = .num t := by simp [specOf, kindOfLetter, hk]
    have hna : i.letter ≠ .a := by intro h; rw [h] at hk; simp [Letter.num] at hk
    suffices h : ∃ m, numValues t (specOf i).isNumericObject v = .die m by
      obtain ⟨m, e⟩ := h
      refine ⟨m, ?_⟩
      simp only [valuesOf, hkind, e]
      rfl
    by_cases hc : i.count = .one
    · have hn : (specOf i).isNumericObject = true := by simp [specOf, hc]
      rw [hn]
      cases v with
      | number t' b =>
        have : t' ≠ t := fun e => ht ⟨by rw [hk, e], hc⟩
        exact ⟨_, by simp [numValues, this]; rfl⟩
      | _ => exact ⟨_, rfl⟩
    · have hn : (specOf i).isNumericObject = false := by simp [specOf, hc]
      rw [hn]
      cases v with
      | array t' es =>
        have : t' ≠ t := fun e => ht ⟨by rw [hk, e], hc⟩
        exact ⟨_, by simp [numValues, this]; rfl⟩
      | _ => exact ⟨_, rfl⟩
  | none =>
    have hl : i.letter = .a := by revert hk; cases i.letter <;> simp [Letter.num]
    have hkind : (specOf i).kind = .str := by simp [specOf, kindOfLetter, hk]
    cases v with
    | text s => exact (ht hl).elim
    | undef =>
      simp only [valuesOf, hkind, asStr, Out.ok_bind, Option.map_none]
      cases hc : i.count with
      | one => exact (ho.2 hl hc).elim
      | star => exact ⟨_, by simp [packLength, specOf, hc, lengthOfValues]; rfl⟩
      | times n =>
        have hn := ho.1 n hc
        have h1 : packLength (specOf i) none = .ok (n : Int) := by simp [packLength, specOf, hc, lengthOfCount]
        have h2 := halve_ok i n
        rw [hkind] at h2
        rw [h1, Out.ok_bind, h2, Out.ok_bind, mul32_ok (by unfold I32; simp [Kind.size]; omega), Out.ok_bind]
        exact ⟨_, rfl⟩
    | _ => exact ⟨_, by simp only [valuesOf, hkind, asStr]; rfl⟩

/-- **C28** (wrong type): if an object does not have the type its item asks for, `pack` throws. -/
theorem c28_type_throws (le : Bool) (limit : Nat) (is js : List Item) (i : Item) (vs os : List Value) (v : Value)
    (hlim : limit ≤ 2147483646) (h4 : 4 ≤ limit) (ht : AllRel (fun i v => i.Takes v) is vs) (hbad : ¬ i.Takes v)
    (ho : ∀ x ∈ is ++ i :: js, x.Ok) (hw : ∀ x ∈ vs ++ v :: os, x.Wf)
    (hlen : (Spec.Packer.text (is ++ i :: js)).length ≤ 2147483647) (hs : 2 * (Spec.Packer.pack le is vs).length ≤ limit) :
    (pack le limit (some (Spec.Packer.text (is ++ i :: js))) (some (vs ++ v :: os))).isDie := by
  unfold pack
  simp only [parseTemplate_ok _ ho hlen, Out.ok_bind]
  split
  · rfl
  · obtain ⟨b, k, e, hr⟩ := StrBuf.new_ok hlim none (-1) (by simp; omega)
    have hoi : ∀ x ∈ is, x.Ok := fun x hx => ho x (by simp [hx])
    have hwv : ∀ x ∈ vs, x.Wf := fun x hx => hw x (by simp [hx])
    have hsl := spec_length le ht hoi hwv
    rw [e, Out.ok_bind]
    obtain ⟨b', r', e', _⟩ := packLoop_append le hlim ht hoi hwv hr (by simp; omega) ((i :: js).map specOf) (v :: os)
    obtain ⟨m, em⟩ := packPart_die le limit hbad (ho i (by simp)) (hw v (by simp))
    have : packLoop le limit ((is ++ i :: js).map specOf) (vs ++ v :: os) b = (.die m, b') := by
      rw [List.map_append, e']
      simp only [List.map_cons, packLoop, em]
      rfl
    rw [Prog.bind_die this]
    rfl

/-- **C28** (too few objects): `pack` throws, whatever the objects are. -/
theorem c28_too_few_throws (le : Bool) (limit : Nat) (items : List Item) (vs : List Value) (ho : ∀ i ∈ items, i.Ok)
    (hlen : (Spec.Packer.text items).length ≤ 2147483647) (h : vs.length < items.length) :
    (pack le limit (some (Spec.Packer.text items)) (some vs)).isDie := by
  unfold pack
  simp only [parseTemplate_ok items ho hlen, Out.ok_bind]
  rw [if_pos (by simp; omega)]
  rfl

/-- A template whose parsing fails makes both methods throw. -/
theorem template_throws (le : Bool) (limit : Nat) {t : Bytes} {m : String} (h : parseTemplate t = .die m) (os : List Value) (b : Bytes) :
    (pack le limit (some t) (some os)).isDie ∧ (unpack le limit (some t) (some b)).isDie := by
  unfold pack unpack
  simp only [h]
  exact ⟨rfl, rfl⟩

/-- **C28** (bad letters): behind any items, a byte that is no letter of a template and does not continue the last item makes both
methods throw, whatever follows it. -/
theorem c28_bad_letter_throws (le : Bool) (limit : Nat) (items : List Item) (c : UInt8) (rest : Bytes) (os : List Value) (b : Bytes)
    (ho : ∀ i ∈ items, i.Ok) (hlen : (Spec.Packer.text items ++ c :: rest).length ≤ 2147483647)
    (hc : c ∉ Spec.ascii "ahHcCsSlLqQfd*<>0123456789") :
    (pack le limit (some (Spec.Packer.text items ++ c :: rest)) (some os)).isDie ∧
      (unpack le limit (some (Spec.Packer.text items ++ c :: rest)) (some b)).isDie := by
  have hne : ∀ x ∈ Spec.ascii "ahHcCsSlLqQfd*<>0123456789", c ≠ x := fun x hx e => hc (e ▸ hx)
  have hst : Stops (c :: rest) := by
    intro c' r h
    obtain ⟨rfl, _⟩ := List.cons.inj h
    refine ⟨?_, hne 42 (by decide +kernel), hne 60 (by decide +kernel), hne 62 (by decide +kernel)⟩
    unfold Format.NoDigit
    apply Classical.byContradiction
    intro hd
    have hd' : 48 ≤ c.toNat ∧ c.toNat ≤ 57 := by omega
    have hall : ∀ k, 48 ≤ k → k ≤ 57 → UInt8.ofNat k ∈ Spec.ascii "ahHcCsSlLqQfd*<>0123456789" := by
      intro k h1 h2
      have : k = 48 ∨ k = 49 ∨ k = 50 ∨ k = 51 ∨ k = 52 ∨ k = 53 ∨ k = 54 ∨ k = 55 ∨ k = 56 ∨ k = 57 := by omega
      rcases this with rfl | rfl | rfl | rfl | rfl | rfl | rfl | rfl | rfl | rfl <;> decide +kernel
    exact hne _ (hall c.toNat hd'.1 hd'.2) (by simp)
  have hk : kindOf c = none := by
    unfold kindOf
    rw [if_neg (hne 97 (by decide +kernel)), if_neg (hne 104 (by decide +kernel)), if_neg (hne 72 (by decide +kernel)),
      if_neg (hne 99 (by decide +kernel)), if_neg (hne 67 (by decide +kernel)), if_neg (hne 115 (by decide +kernel)),
      if_neg (hne 83 (by decide +kernel)), if_neg (hne 108 (by decide +kernel)), if_neg (hne 76 (by decide +kernel)),
      if_neg (hne 113 (by decide +kernel)), if_neg (hne 81 (by decide +kernel)), if_neg (hne 102 (by decide +kernel)),
      if_neg (hne 100 (by decide +kernel))]
  have hll := length_le_text items
  refine template_throws le limit (m := "Invalid specifier in the template.") ?_ os b
  have h := parseLoop_before (c :: rest) hst items [] [] (Spec.Packer.text items ++ c :: rest).length ho (by simpa using hlen)
    (by simp; omega)
  simp only [List.nil_append, List.length_nil] at h
  unfold parseTemplate
  rw [show (0 : Int) = ((0 : Nat) : Int) from rfl, h]
  obtain ⟨k, hk'⟩ : ∃ k, (Spec.Packer.text items ++ c :: rest).length - items.length = k + 1 :=
    ⟨(Spec.Packer.text items ++ c :: rest).length - items.length - 1, by simp; omega⟩
  rw [hk', parseLoop, if_pos (by simp; omega), readSpecifier, aGet_at rfl, Out.ok_bind]
  simp only [hk]
  rfl

example : Spec.ascii "x" = [120] ∧ (120 : UInt8) ∉ Spec.ascii "ahHcCsSlLqQfd*<>0123456789" := by decide +kernel

/-- **C28** (`a` without a count throws, as last item of any template). -/
theorem c28_a_without_count_throws (le : Bool) (limit : Nat) (items : List Item) (os : List Value) (b : Bytes)
    (ho : ∀ i ∈ items, i.Ok) (hlen : (Spec.Packer.text items ++ [97]).length ≤ 2147483647) :
    (pack le limit (some (Spec.Packer.text items ++ [97])) (some os)).isDie ∧
      (unpack le limit (some (Spec.Packer.text items ++ [97])) (some b)).isDie := by
  have hll := length_le_text items
  have hst : Stops [97] := by
    intro c r h
    obtain ⟨rfl, _⟩ := List.cons.inj h
    simp [Format.NoDigit]
  refine template_throws le limit (m := "The data length $length for \"a\" in the template must be specified.") ?_ os b
  have h := parseLoop_before [97] hst items [] [] (Spec.Packer.text items ++ [97]).length ho (by simpa using hlen) (by simp; omega)
  simp only [List.nil_append, List.length_nil] at h
  unfold parseTemplate
  rw [show (0 : Int) = ((0 : Nat) : Int) from rfl, h]
  obtain ⟨k, hk'⟩ : ∃ k, (Spec.Packer.text items ++ [97]).length - items.length = k + 1 :=
    ⟨(Spec.Packer.text items ++ [97]).length - items.length - 1, by simp; omega⟩
  have hle : (Spec.Packer.text items).length + 1 ≤ 2147483647 := by simpa using hlen
  have e1 := readEndian_ok (t := Spec.Packer.text items ++ [97]) (pre := Spec.Packer.text items ++ [97]) (rest := []) .system
    (by simp [Order.text]) hlen (by simp)
  have e2 := readLength_ok (t := Spec.Packer.text items ++ [97]) (pre := Spec.Packer.text items ++ [97]) (rest := []) .one
    (by simp [Count.text]) hlen (by simp) (by simp) (by intro c r h; simp at h)
  simp only [Order.text, Count.text, List.append_nil] at e1 e2
  rw [hk', parseLoop, if_pos (by simp; omega), readSpecifier, aGet_at rfl, Out.ok_bind]
  simp only [show kindOf 97 = some .str from rfl]
  rw [add32_ok (by unfold I32; omega), Out.ok_bind,
    show (((Spec.Packer.text items).length : Nat) : Int) + 1 = ((Spec.Packer.text items ++ [97]).length : Nat) by simp, e1, Out.ok_bind]
  simp only []
  rw [e2, Out.ok_bind, if_pos (by simp)]
  rfl

/-- **C28** (undefined arguments throw). -/
theorem c28_undef_throws (le : Bool) (limit : Nat) (t b : Option Bytes) (os : Option (List Value)) :
    (t = none ∨ os = none → (pack le limit t os).isDie) ∧ (t = none ∨ b = none → (unpack le limit t b).isDie) := by
  constructor
  · rintro (rfl | rfl)
    · rfl
    · cases t <;> rfl
  · rintro (rfl | rfl)
    · rfl
    · cases t <;> rfl

/-! ## The cases are not empty -/

/-- `"l>a3s*"`: an `Int` in big endian, a string of 3 bytes, an array of `short`. -/
def sampleItems : List Item := [⟨.l, .big, .one⟩, ⟨.a, .system, .times 3⟩, ⟨.s, .system, .star⟩]
def sampleValues : List Value := [.number .int [4, 3, 2, 1], .text [65, 66], .array .short [[1, 0], [2, 0]]]

example : Spec.Packer.text sampleItems = Spec.ascii "l>a3s*" := by decide +kernel
example : AllRel (fun i v => i.Takes v) sampleItems sampleValues ∧ (∀ i ∈ sampleItems, i.Ok) ∧ (∀ v ∈ sampleValues, v.Wf) ∧
    Spec.Packer.StarLast sampleItems := by
  refine ⟨.cons ⟨rfl, rfl⟩ (.cons rfl (.cons ⟨rfl, by decide⟩ .nil)), ?_, ?_, ?_⟩
  · simp [sampleItems, Item.Ok]
  · simp [sampleValues, Value.Wf, Num.size]
  · simp [sampleItems, Spec.Packer.StarLast]
example : pack true 1000 (some (Spec.ascii "l>a3s*")) (some sampleValues) = .ok [1, 2, 3, 4, 65, 66, 0, 1, 0, 2, 0] := by decide +kernel
example : unpack true 1000 (some (Spec.ascii "l>a3s*")) (some [1, 2, 3, 4, 65, 66, 0, 1, 0, 2, 0]) =
    .ok [.number .int [4, 3, 2, 1], .text [65, 66, 0], .array .short [[1, 0], [2, 0]]] := by decide +kernel

/-! ## Where the code departs from the property -/

/-- **C28** is false of the layout of arrays with a byte order: of the two numbers of `l>2` neither is stored in big endian (the
loop swaps the first number twice), and of the three of `l>3` only the first. -/
theorem c28_order_violated :
    pack true 1000 (some (Spec.ascii "l>2")) (some [.array .int [[1, 2, 3, 4], [5, 6, 7, 8]]]) = .ok [1, 2, 3, 4, 5, 6, 7, 8] ∧
    Spec.Packer.pack true [⟨.l, .big, .times 2⟩] [.array .int [[1, 2, 3, 4], [5, 6, 7, 8]]] = [4, 3, 2, 1, 8, 7, 6, 5] ∧
    pack true 1000 (some (Spec.ascii "s>3")) (some [.array .short [[1, 2], [3, 4], [5, 6]]]) = .ok [2, 1, 3, 4, 5, 6] := by
  refine ⟨?_, ?_, ?_⟩ <;> decide +kernel

/-- A count whose size is beyond `int` overflows: the size `8 * 268435456` is not an `int`. -/
theorem c28_count_overflow_violated :
    unpack true 1000 (some (Spec.ascii "q268435456")) (some [1, 2, 3]) = .ub ∧
    pack true 1000 (some (Spec.ascii "q268435456")) (some [.array .long []]) = .ub := by
  constructor <;> decide +kernel

/-- **C28** is false of hexadecimal strings: `H2` of "0a" comes back as "a". -/
theorem c28_hex_violated :
    pack true 1000 (some (Spec.ascii "H2")) (some [.text (Spec.ascii "0a")]) = .ok [10] ∧
    unpack true 1000 (some (Spec.ascii "H2")) (some [10]) = .ok [.text (Spec.ascii "a")] := by
  constructor <;> decide +kernel

/-- `H*` packs only the first half of the bytes. -/
theorem c28_hex_star_violated :
    pack true 1000 (some (Spec.ascii "H*")) (some [.text (Spec.ascii "1a1b")]) = .ok [26] := by decide +kernel

/-- `h2` of a byte less than 16 reads behind the end of the digits and throws. -/
theorem c28_hex_low_violated :
    pack true 1000 (some (Spec.ascii "h2")) (some [.text (Spec.ascii "a0")]) = .ok [10] ∧
    (unpack true 1000 (some (Spec.ascii "h2")) (some [10])).isDie := by
  constructor <;> decide +kernel

end Packer
end SPVM
