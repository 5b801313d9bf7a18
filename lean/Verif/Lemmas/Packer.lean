import Verif.Model.Packer
import Verif.Lemmas.Format
import Verif.Lemmas.StrBuf
import Verif.Props.NumStr
import Verif.Props.FnMem
import Verif.Props.Endian
import Verif.Lemmas.NumList
/-!
# Lemmas for `Packer`
-/
set_option linter.unusedSimpArgs false
set_option linter.constructorNameAsVariable false
namespace SPVM
namespace Packer
open VM (Bytes)
open Str
open Spec.Packer (Num Value Item Order Count Letter)

theorem aGet_at {t pre rest : Bytes} {c : UInt8} (ht : t = pre ++ c :: rest) : aGet t pre.length = .ok c := by
  subst ht; exact Hash.aGet_mid rfl

/-! ## The template -/

def kindOfLetter (l : Letter) : Kind :=
  match l.num with
  | none => .str
  | some t => .num t

def endianOf : Order → Endian
  | .system => .none
  | .big => .big
  | .little => .little

def lengthOfCount : Count → Int
  | .one => 1
  | .times n => n
  | .star => 0

/-- The specifier of an item. -/
def specOf (i : Item) : Specifier :=
  { kind := kindOfLetter i.letter, isNumericObject := decide (i.count = .one), length := lengthOfCount i.count,
    wildcard := decide (i.count = .star), endian := endianOf i.order }

theorem kindOf_char (l : Letter) : kindOf l.char = some (kindOfLetter l) := by cases l <;> rfl

/-- What may follow an item: nothing, or a byte that does not continue it. -/
def Stops (rest : Bytes) : Prop :=
  ∀ c r, rest = c :: r → Format.NoDigit c ∧ c ≠ 42 ∧ c ≠ 60 ∧ c ≠ 62

theorem stops_text (items : List Item) : Stops (Spec.Packer.text items) := by
  intro c r h
  cases items with
  | nil => simp [Spec.Packer.text] at h
  | cons i is =>
    simp only [Spec.Packer.text, List.flatMap_cons, Item.text, List.cons_append, List.cons.injEq] at h
    obtain ⟨rfl, _⟩ := h
    cases i.letter <;> simp [Letter.char, Format.NoDigit]

theorem looksAt_stops {t pre rest : Bytes} (ht : t = pre ++ rest) (b : UInt8) (h : ∀ c r, rest = c :: r → c ≠ b) :
    Format.looksAt t pre.length b = .ok false := by
  cases rest with
  | nil => exact Format.looksAt_end (by simp [ht]) b
  | cons c r => rw [Format.looksAt_mid ht rfl]; simpa using h c r rfl

theorem digit_bounds {n : Nat} {d : UInt8} (h : d ∈ Spec.digits n) : 48 ≤ d.toNat ∧ d.toNat ≤ 57 := by
  have := Format.digits_digit n d h
  unfold Format.NoDigit at this
  omega

theorem isDigit_iff (c : UInt8) : FnStr.isDigit (FnStr.sbyte c) = true ↔ ¬ Format.NoDigit c := by
  have := c.toNat_lt
  unfold FnStr.isDigit FnStr.sbyte Format.NoDigit
  simp only [decide_eq_true_eq]
  split <;> omega

theorem digitLoop_eq (rest : Bytes) (hr : ∀ c r, rest = c :: r → Format.NoDigit c) :
    ∀ (ds pre acc : Bytes) (n : Nat), ds.length ≤ n → (∀ d ∈ ds, ¬ Format.NoDigit d) →
      (pre ++ (ds ++ rest)).length ≤ 2147483647 → (rest = [] ∨ ds.length < n) →
      digitLoop (pre ++ (ds ++ rest)) n pre.length acc = .ok (((pre ++ ds).length : Nat), acc ++ ds)
  | [], pre, acc, n, _, _, _, hn => by
    cases n with
    | zero =>
      have : rest = [] := by rcases hn with h | h; exact h; simp at h
      subst this
      simp [digitLoop]
    | succ n =>
      unfold digitLoop
      cases rest with
      | nil => simp
      | cons c r =>
        rw [if_pos (by simp; omega), aGet_at (pre := pre) (c := c) (rest := r) (by simp), Out.ok_bind,
          if_neg (by rw [isDigit_iff]; exact fun h => h (hr c r rfl))]
        simp
  | d :: ds, pre, acc, n, hl, hd, hlen, hn => by
    cases n with
    | zero => simp at hl
    | succ n =>
      unfold digitLoop
      simp only [List.length_append, List.length_cons] at hlen hl hn
      rw [if_pos (by simp; omega), List.cons_append, aGet_at (pre := pre) (c := d) (rest := ds ++ rest) rfl, Out.ok_bind,
        if_pos ((isDigit_iff d).2 (hd d (by simp))), add32_ok (by unfold I32; omega), Out.ok_bind]
      have := digitLoop_eq rest hr ds (pre ++ [d]) (acc ++ [d]) n (by omega) (fun x hx => hd x (by simp [hx]))
        (by simp; omega) (by rcases hn with h | h; exact .inl h; exact .inr (by omega))
      simp only [List.append_assoc, List.singleton_append, List.length_append, List.length_cons, List.length_nil] at this
      simpa [Int.natCast_add, Int.add_assoc, Int.add_comm] using this

theorem toInt_digits (n : Nat) (h : n ≤ 2147483647) : NumStr.toInt (some (Spec.digits n)) = .ok (n : Int) := by
  have e : NumStr.toStr (n : Int) = Spec.digits n := by
    rw [NumStr.c43_to_string _ (by unfold I64; omega)]
    unfold Spec.decimal
    rw [if_neg (by omega)]
    rfl
  rw [← e]
  exact (NumStr.c43_to_int_roundtrip n).1 (by unfold I32; omega)

theorem readEndian_ok {t pre rest : Bytes} (o : Order) (ht : t = pre ++ (o.text ++ rest)) (hlen : t.length ≤ 2147483647)
    (h : ∀ c r, rest = c :: r → c ≠ 60 ∧ c ≠ 62) :
    readEndian t pre.length = .ok (((pre ++ o.text).length : Nat), endianOf o) := by
  unfold readEndian
  have hl := hlen
  rw [ht] at hl
  cases o with
  | system =>
    rw [looksAt_stops (rest := rest) (by simpa [Order.text] using ht) 62 (fun c r e => (h c r e).2), Out.ok_bind, if_neg (by simp),
      looksAt_stops (rest := rest) (by simpa [Order.text] using ht) 60 (fun c r e => (h c r e).1), Out.ok_bind, if_neg (by simp)]
    simp [Order.text, endianOf]
  | big =>
    simp [Order.text] at hl
    rw [Format.looksAt_mid (pre := pre) (c := 62) (rest := rest) (by simpa [Order.text] using ht) rfl, Out.ok_bind, if_pos (by decide),
      add32_ok (by unfold I32; omega)]
    simp [Order.text, endianOf]
  | little =>
    simp [Order.text] at hl
    rw [Format.looksAt_mid (pre := pre) (c := 60) (rest := rest) (by simpa [Order.text] using ht) rfl, Out.ok_bind, if_neg (by decide),
      Format.looksAt_mid (pre := pre) (c := 60) (rest := rest) (by simpa [Order.text] using ht) rfl, Out.ok_bind, if_pos (by decide),
      add32_ok (by unfold I32; omega)]
    simp [Order.text, endianOf]

theorem readLength_ok {t pre rest : Bytes} (k : Count) (ht : t = pre ++ (k.text ++ rest)) (hlen : t.length ≤ 2147483647)
    (hpre : 0 < pre.length) (hk : ∀ n, k = .times n → 0 < n ∧ n ≤ 2147483647) (h : Stops rest) :
    readLength t pre.length =
      .ok (((pre ++ k.text).length : Nat), decide (k = .star), lengthOfCount k, decide (k = .one)) := by
  unfold readLength
  have hl := hlen
  rw [ht] at hl
  cases k with
  | star =>
    simp [Count.text] at hl
    rw [Format.looksAt_mid (pre := pre) (c := 42) (rest := rest) (by simpa [Count.text] using ht) rfl, Out.ok_bind, if_pos (by decide),
      add32_ok (by unfold I32; omega)]
    simp [Count.text, lengthOfCount]
  | one =>
    rw [looksAt_stops (rest := rest) (by simpa [Count.text] using ht) 42 (fun c r e => (h c r e).2.1), Out.ok_bind, if_neg (by simp)]
    have := digitLoop_eq rest (fun c r e => (h c r e).1) [] pre [] t.length (by simp) (by simp)
      (by simpa [ht, Count.text] using hlen) (.inr (by rw [ht]; simp [Count.text]; omega))
    simp only [Count.text, List.nil_append] at ht
    simp only [List.nil_append, ← ht] at this
    rw [this, Out.ok_bind]
    simp [lengthOf, Count.text, lengthOfCount]
  | times n =>
    obtain ⟨hn0, hn⟩ := hk n rfl
    obtain ⟨d, ds, e⟩ := List.exists_cons_of_ne_nil (Format.digits_ne_nil n)
    have hd := digit_bounds (n := n) (d := d) (by rw [e]; simp)
    rw [looksAt_stops (rest := (Count.times n).text ++ rest) ht 42 (fun c r e' => by
        simp only [Count.text, e, List.cons_append, List.cons.injEq] at e'
        rw [← e'.1]; intro hc; rw [hc] at hd; simp at hd), Out.ok_bind, if_neg (by simp)]
    have := digitLoop_eq rest (fun c r e => (h c r e).1) (Spec.digits n) pre [] t.length (by rw [ht]; simp [Count.text]; omega)
      (Format.digits_digit n) (by simpa [ht, Count.text] using hlen) (.inr (by rw [ht]; simp [Count.text]; omega))
    simp only [Count.text] at ht
    simp only [List.nil_append, ← ht] at this
    rw [this, Out.ok_bind]
    have h1 : lengthOf (Spec.digits n) = .ok ((n : Int), false) := by
      unfold lengthOf
      rw [if_pos (by rw [e]; simp; omega), toInt_digits n hn, Out.ok_bind, if_neg (by omega)]
    simp [h1, Count.text, lengthOfCount]

theorem readSpecifier_ok {t pre rest : Bytes} (i : Item) (ht : t = pre ++ (i.text ++ rest)) (hlen : t.length ≤ 2147483647)
    (hi : i.Ok) (h : Stops rest) :
    readSpecifier t pre.length = .ok (((pre ++ i.text).length : Nat), specOf i) := by
  unfold readSpecifier
  have hl := hlen
  rw [ht] at hl
  simp [Item.text] at hl
  have ht1 : t = (pre ++ [i.letter.char]) ++ (i.order.text ++ (i.count.text ++ rest)) := by
    rw [ht]; simp [Item.text]
  have ht2 : t = (pre ++ [i.letter.char] ++ i.order.text) ++ (i.count.text ++ rest) := by
    rw [ht]; simp [Item.text]
  rw [aGet_at (pre := pre) (c := i.letter.char) (rest := i.order.text ++ (i.count.text ++ rest)) (by rw [ht]; simp [Item.text]),
    Out.ok_bind]
  simp only [kindOf_char]
  rw [add32_ok (by unfold I32; omega), Out.ok_bind]
  have e1 := readEndian_ok i.order ht1 hlen (fun c r e => by
    cases hk : i.count with
    | one => simp [hk, Count.text] at e; exact ⟨(h c r e).2.2.1, (h c r e).2.2.2⟩
    | star => simp [hk, Count.text] at e; rw [← e.1]; decide
    | times n =>
      obtain ⟨d, ds, ed⟩ := List.exists_cons_of_ne_nil (Format.digits_ne_nil n)
      have hd := digit_bounds (n := n) (d := d) (by rw [ed]; simp)
      simp [hk, Count.text, ed] at e
      rw [← e.1]
      constructor <;> (intro hc; rw [hc] at hd; simp at hd))
  rw [show ((pre.length : Int) + 1) = ((pre ++ [i.letter.char]).length : Nat) by simp, e1, Out.ok_bind]
  have e2 := readLength_ok i.count ht2 hlen (by simp; omega) hi.1 h
  simp only []
  rw [e2, Out.ok_bind]
  simp only []
  rw [if_neg (by
    rintro ⟨a, b⟩
    refine hi.2 ?_ (by simpa using b)
    revert a
    cases i.letter <;> simp [kindOfLetter, Letter.num])]
  simp [specOf, Item.text, Nat.add_assoc, Nat.add_comm, Nat.add_left_comm]

theorem parseLoop_ok : ∀ (items : List Item) (pre : Bytes) (acc : List Specifier) (n : Nat), (∀ i ∈ items, i.Ok) →
    (pre ++ Spec.Packer.text items).length ≤ 2147483647 → items.length ≤ n →
    parseLoop (pre ++ Spec.Packer.text items) n pre.length acc = .ok (acc ++ items.map specOf)
  | [], pre, acc, n, _, _, _ => by
    cases n <;> simp [parseLoop, Spec.Packer.text]
  | i :: is, pre, acc, n, hi, hlen, hn => by
    cases n with
    | zero => simp at hn
    | succ n =>
      have e : Spec.Packer.text (i :: is) = i.text ++ Spec.Packer.text is := by simp [Spec.Packer.text]
      rw [e] at hlen ⊢
      unfold parseLoop
      rw [if_pos (by simp [Item.text]; omega), readSpecifier_ok i rfl hlen (hi i (by simp)) (stops_text is), Out.ok_bind]
      have := parseLoop_ok is (pre ++ i.text) (acc ++ [specOf i]) n (fun x hx => hi x (by simp [hx])) (by simpa using hlen)
        (by simp at hn; omega)
      simpa using this

/-- The same with something behind the items. -/
theorem parseLoop_before (tail : Bytes) (htail : Stops tail) : ∀ (items : List Item) (pre : Bytes) (acc : List Specifier) (n : Nat),
    (∀ i ∈ items, i.Ok) → (pre ++ (Spec.Packer.text items ++ tail)).length ≤ 2147483647 → items.length ≤ n →
    parseLoop (pre ++ (Spec.Packer.text items ++ tail)) n pre.length acc =
      parseLoop (pre ++ (Spec.Packer.text items ++ tail)) (n - items.length) ((pre ++ Spec.Packer.text items).length : Nat)
        (acc ++ items.map specOf)
  | [], pre, acc, n, _, _, _ => by simp [Spec.Packer.text]
  | i :: is, pre, acc, n, hi, hlen, hn => by
    cases n with
    | zero => simp at hn
    | succ n =>
      have e : Spec.Packer.text (i :: is) ++ tail = i.text ++ (Spec.Packer.text is ++ tail) := by simp [Spec.Packer.text]
      have e' : Spec.Packer.text (i :: is) = i.text ++ Spec.Packer.text is := by simp [Spec.Packer.text]
      rw [e] at hlen ⊢
      have hst : Stops (Spec.Packer.text is ++ tail) := by
        intro c r h
        cases hx : Spec.Packer.text is with
        | nil => rw [hx] at h; exact htail c r h
        | cons x xs =>
          rw [hx] at h
          simp only [List.cons_append, List.cons.injEq] at h
          exact stops_text is c xs (by rw [hx, h.1])
      rw [parseLoop, if_pos (by simp [Item.text]; omega), readSpecifier_ok i rfl hlen (hi i (by simp)) hst, Out.ok_bind]
      have := parseLoop_before tail htail is (pre ++ i.text) (acc ++ [specOf i]) n (fun x hx => hi x (by simp [hx]))
        (by simpa using hlen) (by simp at hn; omega)
      simp only [List.append_assoc] at this
      simp only []
      rw [this, e']
      simp

theorem length_le_text (items : List Item) : items.length ≤ (Spec.Packer.text items).length := by
  induction items with
  | nil => simp
  | cons i is ih => simp [Spec.Packer.text, Item.text] at ih ⊢; omega

theorem parseTemplate_ok (items : List Item) (hi : ∀ i ∈ items, i.Ok) (hlen : (Spec.Packer.text items).length ≤ 2147483647) :
    parseTemplate (Spec.Packer.text items) = .ok (items.map specOf) := by
  have := parseLoop_ok items [] [] (Spec.Packer.text items).length hi (by simpa using hlen) (length_le_text items)
  simpa [parseTemplate] using this

/-! ## The bytes of an object -/

/-- The number of elements of an object. -/
def cnt : Value → Nat
  | .text s => s.length
  | .array _ es => es.length
  | .number _ _ => 1
  | _ => 0

/-- The bytes of an object in memory. -/
def raw : Value → Bytes
  | .text s => s
  | .array _ es => es.flatten
  | .number _ b => b
  | _ => []

/-- The number of elements an item writes for an object. -/
def pcount (i : Item) (v : Value) : Nat :=
  match i.count with
  | .one => 1
  | .times n => n
  | .star => cnt v

def isize (i : Item) : Nat := (kindOfLetter i.letter).size

theorem isize_pos (i : Item) : 0 < isize i := by
  unfold isize; cases i.letter <;> decide

theorem isize_le (i : Item) : isize i ≤ 8 := by
  unfold isize; cases i.letter <;> decide

theorem flatten_length {es : List Bytes} {k : Nat} (h : ∀ e ∈ es, e.length = k) : es.flatten.length = k * es.length := by
  induction es with
  | nil => simp
  | cons e es ih =>
    have := ih (fun x hx => h x (by simp [hx]))
    simp [this, h e (by simp), Nat.mul_add, Nat.add_comm]

theorem flatten_take {k : Nat} : ∀ {es : List Bytes} (n : Nat), (∀ e ∈ es, e.length = k) →
    (es.take n).flatten = es.flatten.take (k * n)
  | [], n, _ => by simp
  | e :: es, 0, _ => by simp
  | e :: es, n + 1, h => by
    have he := h e (by simp)
    have ih := flatten_take (es := es) n (fun x hx => h x (by simp [hx]))
    simp only [List.take_succ_cons, List.flatten_cons, ih, List.take_append]
    rw [List.take_of_length_le (l := e) (by rw [he, Nat.mul_add]; omega), he, Nat.mul_add, Nat.mul_one, Nat.add_sub_cancel]

theorem flatten_replicate_zero (k n : Nat) : (List.replicate n (List.replicate k (0 : UInt8))).flatten = List.replicate (k * n) 0 := by
  rw [List.flatten_replicate_replicate, Nat.mul_comm]

theorem chunks_flatten {k : Nat} : ∀ {es : List Bytes}, (∀ e ∈ es, e.length = k) → chunks k es.length es.flatten = es
  | [], _ => rfl
  | e :: es, h => by
    have he := h e (by simp)
    simp only [List.length_cons, chunks, List.flatten_cons]
    rw [List.take_left' he, List.drop_left' he, chunks_flatten (fun x hx => h x (by simp [hx]))]

theorem raw_length {i : Item} {v : Value} (ht : i.Takes v) (hw : v.Wf) : (raw v).length = isize i * cnt v := by
  cases v with
  | undef => exact ht.elim
  | other => exact ht.elim
  | text s => simp [Item.Takes] at ht; simp [raw, cnt, isize, kindOfLetter, ht, Letter.num, Kind.size]
  | array t es => simp [raw, cnt, isize, kindOfLetter, ht.1, Kind.size, flatten_length hw.1]
  | number t b =>
    have : b.length = t.size := hw
    simp [raw, cnt, isize, kindOfLetter, ht.1, Kind.size, this]

theorem raw_small {i : Item} {v : Value} (ht : i.Takes v) (hw : v.Wf) : (raw v).length ≤ 2147483647 := by
  cases v with
  | undef => exact ht.elim
  | other => exact ht.elim
  | text s => exact hw
  | array t es => simp only [raw]; rw [flatten_length hw.1]; exact hw.2
  | number t b =>
    have : b.length = t.size := hw
    simp only [raw, this]
    cases t <;> decide

theorem cnt_fit {i : Item} {v : Value} (ht : i.Takes v) (ho : i.Ok) : cnt (i.fit v) = pcount i v := by
  cases v with
  | undef => exact ht.elim
  | other => exact ht.elim
  | text s =>
    have := ho.2 ht
    cases h : i.count <;> simp [Item.fit, cnt, pcount, h, Spec.Packer.resize] at this ⊢
    omega
  | array t es =>
    have := ht.2
    cases h : i.count <;> simp [Item.fit, cnt, pcount, h, Spec.Packer.resize] at this ⊢
    omega
  | number t b =>
    have := ht.2
    simp [Item.fit, cnt, pcount, this]

theorem takes_fit {i : Item} {v : Value} (ht : i.Takes v) : i.Takes (i.fit v) := by
  cases v <;> exact ht

theorem raw_fit {i : Item} {v : Value} (ht : i.Takes v) (hw : v.Wf) (ho : i.Ok) :
    raw (i.fit v) = Spec.Packer.resize (isize i * pcount i v) 0 (raw v) := by
  have hl := raw_length ht hw
  cases v with
  | undef => exact ht.elim
  | other => exact ht.elim
  | text s =>
    have h1 := ho.2 ht
    have hsz : isize i = 1 := by unfold isize; rw [show i.letter = .a from ht]; rfl
    cases h : i.count <;> simp [Item.fit, raw, pcount, h, Spec.Packer.resize, hsz, cnt] at h1 ⊢
  | array t es =>
    have h1 := ht.2
    have hsz : isize i = t.size := by simp [isize, kindOfLetter, ht.1, Kind.size]
    have hf := flatten_length hw.1
    cases h : i.count with
    | one => exact (h1 h).elim
    | star =>
      simp only [Item.fit, raw, pcount, h, Spec.Packer.resize, hsz, cnt]
      rw [List.take_of_length_le (by omega), hf, Nat.sub_self]
      simp
    | times n =>
      simp only [Item.fit, raw, pcount, h, Spec.Packer.resize, hsz, List.flatten_append, flatten_take n hw.1,
        flatten_replicate_zero, hf, Nat.mul_sub]
  | number t b =>
    have h1 := ht.2
    have hsz : isize i = t.size := by simp [isize, kindOfLetter, ht.1, Kind.size]
    have hb : b.length = t.size := hw
    simp only [Item.fit, raw, pcount, h1, Spec.Packer.resize, hsz, Nat.mul_one]
    rw [List.take_of_length_le (by omega), hb, Nat.sub_self]
    simp

theorem wf_fit {i : Item} {v : Value} (ht : i.Takes v) (hw : v.Wf) (ho : i.Ok) (hs : isize i * pcount i v ≤ 2147483647) :
    (i.fit v).Wf := by
  have hc := cnt_fit ht ho
  cases v with
  | undef => exact ht.elim
  | other => exact ht.elim
  | text s =>
    have hsz : isize i = 1 := by unfold isize; rw [show i.letter = .a from ht]; rfl
    simp only [Item.fit, cnt] at hc
    simp only [Item.fit, Value.Wf]
    rw [hc]; rw [hsz] at hs; omega
  | array t es =>
    have hsz : isize i = t.size := by simp [isize, kindOfLetter, ht.1, Kind.size]
    simp only [Item.fit, cnt] at hc
    simp only [Item.fit, Value.Wf]
    rw [hc, ← hsz]
    refine ⟨?_, hs⟩
    intro e he
    cases h : i.count with
    | one => simp only [h] at he; rw [hsz]; exact hw.1 e he
    | star => simp only [h] at he; rw [hsz]; exact hw.1 e he
    | times n =>
      simp only [h, Spec.Packer.resize, List.mem_append] at he
      rcases he with he | he
      · rw [hsz]; exact hw.1 e (List.mem_of_mem_take he)
      · rw [List.mem_replicate] at he; rw [he.2]; simp [hsz]
  | number t b => exact hw

/-! ## The byte order loop -/

/-- What the loop does: the first `size` bytes are reversed once for each of the `n` elements. -/
def swapped (c : Bool) (n size : Nat) (b : Bytes) : Bytes :=
  if c = true ∧ n % 2 = 1 then Endian.reversedAt b 0 size else b

theorem swapped_length (c : Bool) (n size : Nat) (b : Bytes) : (swapped c n size b).length = b.length := by
  unfold swapped; split
  · exact Endian.reversedAt_length _ _ _
  · rfl

theorem swapped_twice (c : Bool) (n size : Nat) (b : Bytes) (h : size ≤ b.length ∨ n = 0) :
    swapped c n size (swapped c n size b) = b := by
  unfold swapped
  split
  · exact Endian.reversedAt_twice b 0 size (by omega)
  · rfl

theorem swapLoop_ok (c : Bool) (limit size : Nat) (hs : 0 < size) : ∀ (n start : Nat) (b : Bytes),
    (size ≤ b.length ∨ n = 0) → b.length ≤ 2147483647 → b.length ≤ limit →
    forLoop start n (fun _ x => Endian.whenSwap c limit x size 0) (some b) = .ok (some (swapped c n size b))
  | 0, start, b, _, _, _ => by simp [forLoop, swapped]
  | n + 1, start, b, h, hb, hl => by
    have h' : size ≤ b.length := by omega
    unfold forLoop
    cases c with
    | false =>
      simp only [Endian.whenSwap, Bool.false_eq_true, if_false, Out.ok_bind]
      have := swapLoop_ok false limit size hs n (start + 1) b (.inl h') hb hl
      simpa [Endian.whenSwap, swapped] using this
    | true =>
      have e := Endian.c27_change limit b size 0 hs (by omega) hb (by omega)
      have ih := swapLoop_ok true limit size hs n (start + 1) (Endian.reversedAt b 0 size)
        (.inl (by rw [Endian.reversedAt_length]; exact h')) (by rw [Endian.reversedAt_length]; exact hb)
        (by rw [Endian.reversedAt_length]; exact hl)
      have e' : Endian.changeEndian limit (some b) (size : Int) 0 = .ok (Endian.reversedAt b 0 size) := e
      simp only [Endian.whenSwap, if_true, e', Out.ok_bind] at ih ⊢
      rw [ih]
      unfold swapped
      by_cases hp : n % 2 = 1
      · rw [if_pos ⟨rfl, hp⟩, if_neg (by omega), Endian.reversedAt_twice b 0 size (by omega)]
      · rw [if_neg (by simp [hp]), if_pos ⟨rfl, by omega⟩]

/-- Whether an order asks for a swap. -/
def swaps (le : Bool) : Order → Bool
  | .system => false
  | .big => le
  | .little => !le

theorem toOrder_ok (le : Bool) (limit size n : Nat) (o : Order) (b : Bytes) (hs : 0 < size) (h : size ≤ b.length ∨ n = 0)
    (hb : b.length ≤ 2147483647) (hl : b.length ≤ limit) :
    toOrder le limit (endianOf o) size n b = .ok (some (swapped (swaps le o) n size b)) := by
  cases o with
  | system => simp [toOrder, endianOf, swaps, swapped]
  | big => exact swapLoop_ok le limit size hs n 0 b h hb hl
  | little => exact swapLoop_ok (!le) limit size hs n 0 b h hb hl

theorem fromOrder_ok (le : Bool) (limit size n : Nat) (o : Order) (b : Bytes) (hs : 0 < size) (h : size ≤ b.length ∨ n = 0)
    (hb : b.length ≤ 2147483647) (hl : b.length ≤ limit) :
    fromOrder le limit (endianOf o) size n b = .ok (some (swapped (swaps le o) n size b)) := by
  cases o with
  | system => simp [fromOrder, endianOf, swaps, swapped]
  | big => exact swapLoop_ok le limit size hs n 0 b h hb hl
  | little => exact swapLoop_ok (!le) limit size hs n 0 b h hb hl

/-! ## One object -/

theorem memcpy_obj {dst src : FnMem.MemObj} {len : Nat} (hd : FnMem.Valid dst) (hs : FnMem.Valid src) (h1 : dst.isMem = true)
    (h2 : src.isMem = true) (h3 : dst.readOnly = false) (h4 : len ≤ dst.bytes.length) (h5 : len ≤ src.bytes.length) :
    FnMem.memcpy false (some dst) 0 (some src) 0 len = .ok (blit dst.bytes 0 src.bytes 0 len) := by
  have := hd.small
  have ha : FnMem.Allowed dst 0 src 0 len := ⟨h1, h2, h3, by omega, by omega⟩
  rcases FnMem.copyCommon_cases (rawCopy false) dst src 0 0 len hd hs (by omega) (by omega) (by omega) (by omega) with
    ⟨_, _, e⟩ | ⟨_, hl, e⟩ | ⟨hn, _⟩
  · rw [FnMem.memcpy, e, rawCopy, if_neg (by simp)]
    exact rawMove_ok (by omega) (by omega) (by omega) (by omega) (by omega)
  · rw [FnMem.memcpy, e]
    have : len = 0 := by omega
    subst this
    simp [blit]
  · exact (hn ha).elim

theorem valuesOf_ok (limit : Nat) {i : Item} {v : Value} (ht : i.Takes v) (hw : v.Wf) :
    ∃ m : FnMem.MemObj, valuesOf limit (specOf i) v = .ok (some m) ∧ FnMem.Valid m ∧ m.isMem = true ∧
      m.length = (cnt v : Nat) ∧ m.bytes = raw v := by
  have hsm := raw_small ht hw
  cases v with
  | undef => exact ht.elim
  | other => exact ht.elim
  | text s =>
    have hk : (specOf i).kind = .str := by simp [specOf, kindOfLetter, show i.letter = .a from ht, Letter.num]
    refine ⟨.str s, ?_, FnMem.Valid.str s hsm false, rfl, rfl, rfl⟩
    unfold valuesOf
    rw [hk]
    rfl
  | array t es =>
    have hk : (specOf i).kind = .num t := by simp [specOf, kindOfLetter, ht.1]
    have hn : (specOf i).isNumericObject = false := by simp [specOf, ht.2]
    refine ⟨numericArray t es, ?_, ⟨?_, hsm⟩, rfl, rfl, rfl⟩
    · unfold valuesOf
      rw [hk, hn]
      simp [numValues]
    · simp only [numericArray]
      rw [flatten_length hw.1]; simp
  | number t b =>
    have hk : (specOf i).kind = .num t := by simp [specOf, kindOfLetter, ht.1]
    have hn : (specOf i).isNumericObject = true := by simp [specOf, ht.2]
    have hb : b.length = t.size := hw
    refine ⟨numericArray t [b], ?_, ⟨?_, ?_⟩, rfl, rfl, ?_⟩
    · unfold valuesOf
      rw [hk, hn]
      simp [numValues]
    · simp [numericArray, hb]
    · simpa [numericArray, raw] using hsm
    · simp [numericArray, raw]

theorem halve_ok (i : Item) (n : Int) : halve (specOf i).kind n = .ok n := by
  unfold halve
  rw [if_neg]
  simp only [specOf]
  cases i.letter <;> simp [kindOfLetter, Letter.num]

/-- The bytes `pack` writes for an object. -/
def stored (le : Bool) (i : Item) (v : Value) : Bytes :=
  swapped (swaps le i.order) (pcount i v) (isize i) (raw (i.fit v))

theorem raw_fit_length {i : Item} {v : Value} (ht : i.Takes v) (hw : v.Wf) (ho : i.Ok) :
    (raw (i.fit v)).length = isize i * pcount i v := by
  rw [raw_fit ht hw ho]
  simp [Spec.Packer.resize]
  omega

theorem stored_length (le : Bool) {i : Item} {v : Value} (ht : i.Takes v) (hw : v.Wf) (ho : i.Ok) :
    (stored le i v).length = isize i * pcount i v := by
  rw [stored, swapped_length, raw_fit_length ht hw ho]

theorem size_le_mul (a : Nat) {n : Nat} : a ≤ a * n ∨ n = 0 := by
  cases n with
  | zero => exact .inr rfl
  | succ n => exact .inl (by rw [Nat.mul_succ]; omega)

theorem packPart_ok (le : Bool) (limit : Nat) {i : Item} {v : Value} (ht : i.Takes v) (hw : v.Wf) (ho : i.Ok)
    (hlim : limit ≤ 2147483646) (hs : isize i * pcount i v ≤ limit) :
    packPart le limit (specOf i) v = .ok (some (stored le i v)) := by
  obtain ⟨m, e, hv, hm, hml, hmb⟩ := valuesOf_ok limit ht hw
  have hrl := raw_length ht hw
  have hrs := raw_small ht hw
  have hpos := isize_pos i
  unfold packPart
  rw [e, Out.ok_bind]
  have hpl : packLength (specOf i) (some m) = .ok ((pcount i v : Nat) : Int) := by
    unfold packLength
    cases h : i.count <;> simp [specOf, h, pcount, lengthOfCount, lengthOfValues, hml]
  have hks : ((specOf i).kind.size : Int) = (isize i : Nat) := rfl
  rw [hpl, Out.ok_bind, halve_ok, Out.ok_bind, hks]
  generalize hN : pcount i v = n at *
  have hmul : mul32 ((isize i : Nat) : Int) ((n : Nat) : Int) = .ok ((isize i * n : Nat) : Int) := by
    rw [mul32_ok (by unfold I32; rw [← Int.natCast_mul]; omega)]; simp
  have hmul2 : mul32 ((isize i : Nat) : Int) ((cnt v : Nat) : Int) = .ok ((isize i * cnt v : Nat) : Int) := by
    rw [mul32_ok (by unfold I32; rw [← Int.natCast_mul]; omega)]; simp
  rw [hmul, Out.ok_bind]
  simp only [lengthOfValues, hml, Out.ok_bind]
  have hcopy : copySizeOf (isize i : Nat) (cnt v : Nat) (n : Nat) = .ok ((min (raw v).length (isize i * n) : Nat) : Int) := by
    unfold copySizeOf
    by_cases hc : cnt v < n
    · rw [if_pos (by omega), hmul2, hrl, Nat.min_eq_left (Nat.mul_le_mul_left _ (by omega))]
    · rw [if_neg (by omega), hmul, hrl, Nat.min_eq_right (Nat.mul_le_mul_left _ (by omega))]
  rw [hcopy, Out.ok_bind, newStringLen_ok (by omega) (by omega), Out.ok_bind,
    memcpy_obj (FnMem.Valid.str _ (by simp; omega) false) hv rfl hm rfl (by simp [FnMem.MemObj.str]; omega) (by rw [hmb]; omega), Out.ok_bind]
  have hbl : blit (FnMem.MemObj.str (List.replicate ((isize i * n : Nat) : Int).toNat 0)).bytes 0 m.bytes 0
      (min (raw v).length (isize i * n)) = raw (i.fit v) := by
    rw [raw_fit ht hw ho, hN, hmb]
    simp only [FnMem.MemObj.str, blit, Spec.Packer.resize, Int.toNat_natCast, List.take_zero, List.nil_append, List.drop_zero,
      Nat.zero_add, List.drop_replicate]
    by_cases hc : (raw v).length ≤ isize i * n
    · rw [Nat.min_eq_left hc, List.take_of_length_le (Nat.le_refl _), List.take_of_length_le hc]
    · rw [Nat.min_eq_right (by omega), Nat.sub_self, show isize i * n - (raw v).length = 0 by omega]
  rw [hbl]
  have hfl := raw_fit_length ht hw ho
  rw [hN] at hfl
  have := toOrder_ok le limit (isize i) n i.order (raw (i.fit v)) hpos (by rw [hfl]; exact size_le_mul _) (by omega) (by omega)
  simp only [Int.toNat_natCast]
  rw [show (specOf i).endian = endianOf i.order from rfl, this, stored, hN]

/-- The copy into a new numeric array takes all bytes. -/
theorem fill_ok (t : Num) (n : Nat) (part : Bytes) (h : part.length = t.size * n) (hs : part.length ≤ 2147483647) :
    FnMem.memcpy false (some (numericArray t (List.replicate ((n : Nat) : Int).toNat (List.replicate t.size 0)))) 0
      (some (.str part)) 0 (part.length : Nat) = .ok part := by
  have hz : (numericArray t (List.replicate ((n : Nat) : Int).toNat (List.replicate t.size 0))).bytes = List.replicate (t.size * n) 0 := by
    simp only [numericArray, Int.toNat_natCast, flatten_replicate_zero]
  have hv : FnMem.Valid (numericArray t (List.replicate ((n : Nat) : Int).toNat (List.replicate t.size 0))) :=
    ⟨by rw [hz]; simp [numericArray], by rw [hz]; simp; omega⟩
  rw [memcpy_obj (len := part.length) hv (FnMem.Valid.str part hs false) rfl rfl rfl (by rw [hz]; simp; omega) (Nat.le_refl _), hz,
    blit_full (by simp [h]) (by simp [FnMem.MemObj.str])]
  simp [FnMem.MemObj.str]

theorem objectOf_ok (limit : Nat) {i : Item} {w : Value} (ht : i.Takes w) (hw : w.Wf) (hlim : (raw w).length ≤ limit) (h8 : 1 ≤ limit) :
    objectOf limit (specOf i) (cnt w : Nat) ((raw w).length : Nat) (raw w) = .ok w := by
  have hsm := raw_small ht hw
  cases w with
  | undef => exact ht.elim
  | other => exact ht.elim
  | text s =>
    have hk : (specOf i).kind = .str := by simp [specOf, kindOfLetter, show i.letter = .a from ht, Letter.num]
    unfold objectOf
    rw [hk]
    rfl
  | array t es =>
    have hk : (specOf i).kind = .num t := by simp [specOf, kindOfLetter, ht.1]
    have hn : (specOf i).isNumericObject = false := by simp [specOf, ht.2]
    have hf := flatten_length hw.1
    have htp : 0 < t.size := by cases t <;> decide
    have hle : es.length ≤ t.size * es.length := Nat.le_mul_of_pos_left _ htp
    unfold objectOf
    rw [hk]
    simp only [unpackNum, hn]
    simp only [raw, cnt] at hlim hsm ⊢
    rw [NumList.newArray_ok (by omega) (by omega), Out.ok_bind, fill_ok t es.length es.flatten hf hsm, Out.ok_bind, if_neg (by simp)]
    simp only [Int.toNat_natCast]
    rw [chunks_flatten hw.1]
  | number t b =>
    have hk : (specOf i).kind = .num t := by simp [specOf, kindOfLetter, ht.1]
    have hn : (specOf i).isNumericObject = true := by simp [specOf, ht.2]
    have hb : b.length = t.size := hw
    unfold objectOf
    rw [hk]
    simp only [unpackNum, hn]
    simp only [raw, cnt] at hlim hsm ⊢
    rw [NumList.newArray_ok (by omega) (by omega), Out.ok_bind, fill_ok t 1 b (by omega) hsm, Out.ok_bind, if_pos trivial]
    simp [chunks, aGet, alen, ← hb]

theorem unpackPart_ok (le : Bool) (limit : Nat) {i : Item} {v : Value} (ht : i.Takes v) (hw : v.Wf) (ho : i.Ok)
    (hlim : limit ≤ 2147483646) (h8 : 1 ≤ limit) (A B : Bytes) (hstar : i.count = .star → B.length < isize i)
    (hs : isize i * pcount i v ≤ limit) (hbin : (A ++ (stored le i v ++ B)).length ≤ 2147483646) :
    unpackPart le limit (specOf i) (A ++ (stored le i v ++ B)) A.length =
      .ok (i.fit v, ((A ++ stored le i v).length : Nat)) := by
  have hsl := stored_length le ht hw ho
  have hpos := isize_pos i
  have hfl := raw_fit_length ht hw ho
  have hcf := cnt_fit ht ho
  have hlen : (A ++ (stored le i v ++ B)).length = A.length + (isize i * pcount i v + B.length) := by simp [hsl]
  unfold unpackPart
  have hks : ((specOf i).kind.size : Int) = (isize i : Nat) := rfl
  have hul : unpackLength (specOf i) ((A ++ (stored le i v ++ B)).length : Nat) A.length = .ok ((pcount i v : Nat) : Int) := by
    unfold unpackLength
    cases h : i.count with
    | one => simp [specOf, h, pcount, lengthOfCount]
    | times n => simp [specOf, h, pcount, lengthOfCount]
    | star =>
      rw [if_pos (by simp [specOf, h]), hks, hlen, sub32_ok (by unfold I32; omega), Out.ok_bind]
      have e : ((A.length + (isize i * pcount i v + B.length) : Nat) : Int) - A.length = ((isize i * pcount i v + B.length : Nat) : Int) := by
        omega
      rw [e, VM.divInt, VM.divide, if_neg (by omega), VM.cDiv, if_neg (by omega), ← Int.ofNat_tdiv, Nat.mul_add_div hpos,
        Nat.div_eq_of_lt (hstar h), Nat.add_zero]
  rw [hul, Out.ok_bind, halve_ok, Out.ok_bind, hks]
  have hmul : mul32 ((isize i : Nat) : Int) ((pcount i v : Nat) : Int) = .ok ((isize i * pcount i v : Nat) : Int) := by
    rw [mul32_ok (by unfold I32; rw [← Int.natCast_mul]; omega)]; simp
  rw [hmul, Out.ok_bind, add32_ok (by unfold I32; omega), Out.ok_bind, if_neg (by omega), newStringLen_ok (by omega) (by omega),
    Out.ok_bind, memcpy_ok (by omega) (by omega) (by omega) (by simp only [List.length_replicate, Int.toNat_natCast]; omega) (by omega)
      (by simp only [List.length_replicate, Int.toNat_natCast]; omega) (by omega), Out.ok_bind]
  have hbl : blit (List.replicate ((isize i * pcount i v : Nat) : Int).toNat 0) (Int.toNat 0) (A ++ (stored le i v ++ B))
      ((A.length : Int)).toNat ((isize i * pcount i v : Nat) : Int).toNat = stored le i v := by
    simp only [Int.toNat_natCast, Int.toNat_zero]
    rw [blit_full (by simp) (by omega), List.drop_left, List.take_left' hsl]
  rw [hbl, show (specOf i).endian = endianOf i.order from rfl]
  simp only [Int.toNat_natCast]
  rw [fromOrder_ok le limit (isize i) (pcount i v) i.order _ hpos (by rw [hsl]; exact size_le_mul _) (by omega) (by omega), Out.ok_bind]
  have hback : swapped (swaps le i.order) (pcount i v) (isize i) (stored le i v) = raw (i.fit v) :=
    swapped_twice _ _ _ _ (by rw [hfl]; exact size_le_mul _)
  rw [hback]
  simp only [defined, Out.ok_bind]
  have hobj := objectOf_ok limit (takes_fit ht) (wf_fit ht hw ho (by omega)) (by omega) h8
  rw [hcf, hfl] at hobj
  rw [hobj, Out.ok_bind]
  simp [hsl]

/-! ## The loops -/

def storedAll (le : Bool) : List Item → List Value → Bytes
  | i :: is, v :: vs => stored le i v ++ storedAll le is vs
  | _, _ => []

theorem push_ok {limit : Nat} (hlim : limit ≤ 2147483646) {b : StrBuf} {xs rest : Bytes} (h : StrBuf.Rep limit b xs rest) (s : Bytes)
    (hs : 2 * (xs.length + s.length) ≤ limit) :
    ∃ b' rest', StrBuf.push limit (some s) 0 (-1) b = (.ok (), b') ∧ StrBuf.Rep limit b' (xs ++ s) rest' := by
  rcases StrBuf.push_cases hlim h s 0 s.length (by omega) (by omega) (by omega) (by omega) (-1) (.inl ⟨rfl, by omega⟩) with
    ⟨b', r', e, hr, _⟩ | ⟨_, _, hb⟩ | ⟨_, hb⟩
  · exact ⟨b', r', e, by simpa using hr⟩
  · omega
  · omega

/-- The part of the loop over objects that fit. -/
theorem packLoop_append (le : Bool) {limit : Nat} (hlim : limit ≤ 2147483646) : ∀ {is : List Item} {vs : List Value},
    AllRel (fun i v => i.Takes v) is vs → (∀ i ∈ is, i.Ok) → (∀ v ∈ vs, v.Wf) →
    ∀ {b : StrBuf} {xs rest : Bytes}, StrBuf.Rep limit b xs rest → 2 * (xs.length + (storedAll le is vs).length) ≤ limit →
    ∀ (sps : List Specifier) (os : List Value), ∃ b' rest',
      packLoop le limit (is.map specOf ++ sps) (vs ++ os) b = packLoop le limit sps os b' ∧
        StrBuf.Rep limit b' (xs ++ storedAll le is vs) rest'
  | _, _, .nil, _, _, b, xs, rest, hr, _, sps, os => ⟨b, rest, rfl, by simpa [storedAll] using hr⟩
  | i :: is, v :: vs, .cons ht hrel, ho, hw, b, xs, rest, hr, hs, sps, os => by
    have hsl := stored_length le ht (hw v (by simp)) (ho i (by simp))
    simp only [storedAll, List.length_append] at hs
    obtain ⟨b1, r1, e1, hr1⟩ := push_ok hlim hr (stored le i v) (by omega)
    obtain ⟨b2, r2, e2, hr2⟩ := packLoop_append le hlim hrel (fun x hx => ho x (by simp [hx])) (fun x hx => hw x (by simp [hx]))
      hr1 (by simp only [List.length_append]; omega) sps os
    refine ⟨b2, r2, ?_, by simpa [storedAll] using hr2⟩
    simp only [List.map_cons, List.cons_append, packLoop]
    rw [packPart_ok le limit ht (hw v (by simp)) (ho i (by simp)) hlim (by omega)]
    simp only [Prog.lift_ok_bind]
    rw [Prog.bind_ok e1, e2]

theorem unpackLoop_ok (le : Bool) {limit : Nat} (hlim : limit ≤ 2147483646) (h8 : 1 ≤ limit) : ∀ {is : List Item} {vs : List Value},
    AllRel (fun i v => i.Takes v) is vs → (∀ i ∈ is, i.Ok) → (∀ v ∈ vs, v.Wf) → Spec.Packer.StarLast is →
    ∀ (A : Bytes), A.length + (storedAll le is vs).length ≤ limit →
    unpackLoop le limit (A ++ storedAll le is vs) (is.map specOf) A.length = .ok (Spec.Packer.unpacked is vs)
  | _, _, .nil, _, _, _, A, _ => rfl
  | i :: is, v :: vs, .cons ht hrel, ho, hw, hst, A, hs => by
    have hsl := stored_length le ht (hw v (by simp)) (ho i (by simp))
    simp only [storedAll, List.length_append] at hs
    have hstar : i.count = .star → storedAll le is vs = [] := by
      intro hc
      cases is with
      | nil => cases hrel; rfl
      | cons j js => exact (hst.1 hc).elim
    have hst' : Spec.Packer.StarLast is := by
      cases is with
      | nil => trivial
      | cons j js => exact hst.2
    simp only [List.map_cons, unpackLoop, storedAll]
    rw [unpackPart_ok le limit ht (hw v (by simp)) (ho i (by simp)) hlim h8 A _ (fun hc => by rw [hstar hc]; exact isize_pos i) (by omega) (by simp; omega), Out.ok_bind]
    have ih := unpackLoop_ok le hlim h8 hrel (fun x hx => ho x (by simp [hx])) (fun x hx => hw x (by simp [hx])) hst'
      (A ++ stored le i v) (by simp only [List.length_append]; omega)
    simp only [List.append_assoc] at ih
    simp only []
    rw [ih]
    rfl

/-! ## The specification's bytes -/

theorem apply_length (le : Bool) (o : Order) (b : Bytes) : (o.apply le b).length = b.length := by
  cases o <;> simp [Order.apply] <;> split <;> simp

theorem bytes_length (le : Bool) (o : Order) (v : Value) : (v.bytes le o).length = (raw v).length := by
  cases v with
  | array t es =>
    simp only [Value.bytes, raw, List.length_flatten, List.map_map]
    congr 2
    funext e
    exact apply_length le o e
  | number t b => exact apply_length le o b
  | _ => rfl

theorem spec_length (le : Bool) : ∀ {is : List Item} {vs : List Value}, AllRel (fun i v => i.Takes v) is vs → (∀ i ∈ is, i.Ok) →
    (∀ v ∈ vs, v.Wf) → (storedAll le is vs).length = (Spec.Packer.pack le is vs).length
  | _, _, .nil, _, _ => rfl
  | i :: is, v :: vs, .cons ht hrel, ho, hw => by
    have ih := spec_length le hrel (fun x hx => ho x (by simp [hx])) (fun x hx => hw x (by simp [hx]))
    simp only [storedAll, Spec.Packer.pack, List.length_append, ih, bytes_length, stored_length le ht (hw v (by simp)) (ho i (by simp)),
      raw_fit_length ht (hw v (by simp)) (ho i (by simp))]

theorem apply_one (le : Bool) (o : Order) (b : Bytes) (h : b.length ≤ 1) : o.apply le b = b := by
  have : b.reverse = b := by
    match b, h with
    | [], _ => rfl
    | [_], _ => rfl
  cases o <;> simp [Order.apply, this]

theorem reversedAt_full (b : Bytes) : Endian.reversedAt b 0 b.length = b.reverse := by simp [Endian.reversedAt]

/-- Where the stored bytes are those of the specification. -/
theorem stored_eq (le : Bool) {i : Item} {v : Value} (ht : i.Takes v) (hw : v.Wf) (ho : i.Ok)
    (hs : isize i * pcount i v ≤ 2147483647)
    (h : i.order = .system ∨ i.count = .one ∨ i.letter = .a ∨ i.letter = .c ∨ i.letter = .C) :
    stored le i v = (i.fit v).bytes le i.order := by
  have hfl := raw_fit_length ht hw ho
  have hwf := wf_fit ht hw ho hs
  have htf := takes_fit ht
  by_cases hsz : isize i = 1
  · have e1 : stored le i v = raw (i.fit v) := by
      unfold stored swapped
      split
      · rename_i hc
        rw [hsz, Endian.reversedAt_one]
        rw [hfl, hsz]; omega
      · rfl
    rw [e1]
    cases hv : i.fit v with
    | text s => rfl
    | undef => rfl
    | other => rfl
    | array t es =>
      rw [hv] at hwf htf
      have : t.size = 1 := by rw [← hsz]; simp [isize, kindOfLetter, htf.1, Kind.size]
      simp only [raw, Value.bytes]
      rw [List.map_congr_left (g := id) (fun e he => apply_one le _ e (by rw [hwf.1 e he, this]; omega)), List.map_id]
    | number t b =>
      rw [hv] at hwf htf
      have : t.size = 1 := by rw [← hsz]; simp [isize, kindOfLetter, htf.1, Kind.size]
      exact (apply_one le _ b (by rw [show b.length = t.size from hwf, this]; omega)).symm
  · have hna : i.letter ≠ .a ∧ i.letter ≠ .c ∧ i.letter ≠ .C := by
      refine ⟨?_, ?_, ?_⟩ <;> (intro hc; apply hsz; unfold isize; rw [hc]; rfl)
    rcases h with h | h | h | h | h
    · unfold stored
      rw [h]
      simp only [swaps, swapped, Bool.false_eq_true, false_and, if_false]
      cases i.fit v with
      | array t es =>
        simp only [raw, Value.bytes]
        rw [show Order.apply le .system = id from rfl, List.map_id]
      | _ => rfl
    · cases v with
      | undef => exact ht.elim
      | other => exact ht.elim
      | text s => exact (ho.2 ht h).elim
      | array t es => exact (ht.2 h).elim
      | number t b =>
        have hb : isize i = b.length := by
          rw [show b.length = t.size from hw]; simp [isize, kindOfLetter, ht.1, Kind.size]
        have hp : pcount i (.number t b) = 1 := by simp [pcount, h]
        unfold stored
        rw [hp, hb]
        simp only [Item.fit, raw, Value.bytes, swapped]
        cases i.order with
        | system => simp [swaps, Order.apply]
        | big => cases le <;> simp [swaps, Order.apply, reversedAt_full]
        | little => cases le <;> simp [swaps, Order.apply, reversedAt_full]
    · exact (hna.1 h).elim
    · exact (hna.2.1 h).elim
    · exact (hna.2.2 h).elim

/-! ## Unpacking any bytes -/

theorem isize_eq (i : Item) : isize i = i.letter.size := by
  unfold isize; cases i.letter <;> rfl

/-- The elements of an item in `r` bytes. -/
def avail (i : Item) (r : Nat) : Nat :=
  match i.count with
  | .one => 1
  | .times n => n
  | .star => r / isize i

theorem chunks_length (k : Nat) : ∀ (n : Nat) (b : Bytes), (chunks k n b).length = n
  | 0, _ => rfl
  | n + 1, b => by simp [chunks, chunks_length k n]

theorem chunks_size (k : Nat) : ∀ (n : Nat) (b : Bytes), k * n ≤ b.length → ∀ e ∈ chunks k n b, e.length = k
  | 0, _, _, e, he => by simp [chunks] at he
  | n + 1, b, h, e, he => by
    rw [Nat.mul_succ] at h
    simp only [chunks, List.mem_cons] at he
    rcases he with rfl | he
    · simp; omega
    · exact chunks_size k n (b.drop k) (by simp; omega) e he

theorem chunks_join (k : Nat) : ∀ (n : Nat) (b : Bytes), k * n = b.length → (chunks k n b).flatten = b
  | 0, b, h => by simp at h; simp [chunks, List.eq_nil_of_length_eq_zero h.symm]
  | n + 1, b, h => by
    rw [Nat.mul_succ] at h
    simp only [chunks, List.flatten_cons]
    rw [chunks_join k n (b.drop k) (by simp; omega), List.take_append_drop]

/-- Every block of the right length is what `pack` stores for some object. -/
theorem exists_value (le : Bool) (i : Item) (ho : i.Ok) (n : Nat) (P : Bytes) (hP : P.length = isize i * n)
    (hn : i.count = .one → n = 1) (hn' : ∀ m, i.count = .times m → n = m) (hs : P.length ≤ 2147483647) :
    ∃ v, i.Takes v ∧ v.Wf ∧ i.fit v = v ∧ pcount i v = n ∧ stored le i v = P := by
  have hQ : (swapped (swaps le i.order) n (isize i) P).length = P.length := swapped_length _ _ _ _
  generalize hq : swapped (swaps le i.order) n (isize i) P = Q at hQ
  have back : swapped (swaps le i.order) n (isize i) Q = P := by
    rw [← hq]; exact swapped_twice _ _ _ _ (by rw [hP]; exact size_le_mul _)
  suffices h : ∃ v, i.Takes v ∧ v.Wf ∧ i.fit v = v ∧ pcount i v = n ∧ raw v = Q by
    obtain ⟨v, h1, h2, h3, h4, h5⟩ := h
    exact ⟨v, h1, h2, h3, h4, by rw [stored, h3, h4, h5, back]⟩
  cases hk : i.letter.num with
  | none =>
    have hl : i.letter = .a := by revert hk; cases i.letter <;> simp [Letter.num]
    have hsz : isize i = 1 := by unfold isize; rw [hl]; rfl
    have hQn : Q.length = n := by rw [hQ, hP, hsz, Nat.one_mul]
    refine ⟨.text Q, hl, by rw [← hQ] at hs; exact hs, ?_, ?_, rfl⟩
    · cases hc : i.count with
      | times m => have := hn' m hc; simp [Item.fit, hc, Spec.Packer.resize, ← this, ← hQn]
      | _ => simp [Item.fit, hc]
    · cases hc : i.count with
      | times m => simp [pcount, hc, hn' m hc]
      | one => exact (ho.2 hl hc).elim
      | star => simp [pcount, hc, cnt, hQn]
  | some t =>
    have hsz : isize i = t.size := by simp [isize, kindOfLetter, hk, Kind.size]
    by_cases hc : i.count = .one
    · refine ⟨.number t Q, ⟨hk, hc⟩, ?_, rfl, by simp [pcount, hc, hn hc], rfl⟩
      show Q.length = t.size
      rw [hQ, hP, hn hc, hsz, Nat.mul_one]
    · have hl : (chunks t.size n Q).length = n := chunks_length _ _ _
      have hQl : t.size * n = Q.length := by rw [hQ, hP, hsz]
      refine ⟨.array t (chunks t.size n Q), ⟨hk, hc⟩, ⟨chunks_size _ _ _ (by omega), by rw [hl]; omega⟩, ?_, ?_, chunks_join _ _ _ hQl⟩
      · cases h : i.count with
        | times m => have := hn' m h; simp only [Item.fit, h, Spec.Packer.resize, ← this, hl, Nat.sub_self]; rw [List.take_of_length_le (by omega)]; simp
        | _ => simp [Item.fit, h]
      · cases h : i.count with
        | times m => simp [pcount, h, hn' m h]
        | one => exact (hc h).elim
        | star => simp [pcount, h, cnt, hl]

theorem unpackPart_short (le : Bool) (limit : Nat) (i : Item) (b : Bytes) (off n : Nat)
    (hn : (i.count = .one ∧ n = 1) ∨ i.count = .times n) (hov : off + isize i * n ≤ 2147483647) (hsh : b.length < off + isize i * n) :
    ∃ m, unpackPart le limit (specOf i) b off = .die m := by
  unfold unpackPart
  have hks : ((specOf i).kind.size : Int) = (isize i : Nat) := rfl
  have hul : unpackLength (specOf i) b.length off = .ok ((n : Nat) : Int) := by
    rcases hn with ⟨h, rfl⟩ | h <;> simp [unpackLength, specOf, h, lengthOfCount]
  have hmul : mul32 ((isize i : Nat) : Int) ((n : Nat) : Int) = .ok ((isize i * n : Nat) : Int) := by
    rw [mul32_ok (by unfold I32; rw [← Int.natCast_mul]; omega)]; simp
  rw [hul, Out.ok_bind, halve_ok, Out.ok_bind, hks, hmul, Out.ok_bind, add32_ok (by unfold I32; omega), Out.ok_bind,
    if_pos (by omega)]
  exact ⟨_, rfl⟩

theorem unpackLoop_total (le : Bool) {limit : Nat} (hlim : limit ≤ 2147483646) (h8 : 1 ≤ limit) : ∀ (is : List Item),
    (∀ i ∈ is, i.Ok) → Spec.Packer.StarLast is → ∀ (A R : Bytes), A.length + R.length ≤ limit →
    A.length + Spec.Packer.need is ≤ 2147483647 →
    (Spec.Packer.need is ≤ R.length ∧ ∃ vs r, R = storedAll le is vs ++ r ∧ AllRel (fun i v => i.Takes v) is vs ∧ (∀ v ∈ vs, v.Wf) ∧
      Spec.Packer.unpacked is vs = vs ∧ unpackLoop le limit (A ++ R) (is.map specOf) A.length = .ok vs) ∨
    (R.length < Spec.Packer.need is ∧ ∃ m, unpackLoop le limit (A ++ R) (is.map specOf) A.length = .die m)
  | [], _, _, A, R, _, _ => .inl ⟨by simp [Spec.Packer.need], [], R, rfl, .nil, by simp, rfl, rfl⟩
  | i :: is, ho, hst, A, R, hl, hn => by
    have hpos := isize_pos i
    have hoi := ho i (by simp)
    have hst' : Spec.Packer.StarLast is := by
      cases is with
      | nil => trivial
      | cons j js => exact hst.2
    have hneed : Spec.Packer.need (i :: is) =
        (if i.count = .star then 0 else isize i * avail i R.length) + Spec.Packer.need is := by
      simp only [Spec.Packer.need, avail]
      cases hc : i.count <;> simp [isize_eq]
    rw [hneed] at hn ⊢
    by_cases hfit : isize i * avail i R.length ≤ R.length
    · obtain ⟨v, h1, h2, h3, h4, h5⟩ := exists_value le i hoi (avail i R.length) (R.take (isize i * avail i R.length))
        (by simp; omega) (fun h => by simp [avail, h]) (fun m h => by simp [avail, h]) (by simp; omega)
      have hR : R = stored le i v ++ R.drop (isize i * avail i R.length) := by rw [h5, List.take_append_drop]
      have hstored := stored_length le h1 h2 hoi
      have hstar : i.count = .star → (R.drop (isize i * avail i R.length)).length < isize i := by
        intro hc
        simp only [avail, hc, List.length_drop]
        have := Nat.div_add_mod R.length (isize i)
        have := Nat.mod_lt R.length hpos
        omega
      have hu := unpackPart_ok le limit h1 h2 hoi hlim h8 A (R.drop (isize i * avail i R.length)) hstar
        (by rw [h4]; omega) (by rw [← hR]; simp; omega)
      rw [← hR, h3] at hu
      generalize hB : R.drop (isize i * avail i R.length) = B at *
      have hRl : R.length = isize i * avail i R.length + B.length := by
        rw [← hB]; simp; omega
      rw [h4] at hstored
      have hstarz : i.count = .star → is = [] := by
        intro hc
        cases is with
        | nil => rfl
        | cons j js => exact (hst.1 hc).elim
      have ih := unpackLoop_total le hlim h8 is (fun x hx => ho x (by simp [hx])) hst' (A ++ stored le i v) B
        (by simp only [List.length_append]; omega)
        (by
          simp only [List.length_append]
          by_cases hc : i.count = .star
          · rw [hstarz hc]; simp only [Spec.Packer.need]; omega
          · rw [if_neg hc] at hn; omega)
      rw [List.append_assoc, ← hR] at ih
      simp only [List.map_cons, unpackLoop]
      rw [hu, Out.ok_bind]
      simp only []
      rcases ih with ⟨g1, vs, r, g2, g3, g4, g5, g6⟩ | ⟨g1, m, g2⟩
      · refine .inl ⟨by split <;> omega, v :: vs, r, ?_, .cons h1 g3, ?_, ?_, ?_⟩
        · rw [hR, g2]; simp [storedAll]
        · intro x hx
          rcases List.mem_cons.1 hx with rfl | hx
          · exact h2
          · exact g4 x hx
        · simp [Spec.Packer.unpacked, h3, g5]
        · rw [g6]; rfl
      · refine .inr ⟨?_, m, by rw [g2]; rfl⟩
        by_cases hc : i.count = .star
        · rw [hstarz hc] at g1; simp [Spec.Packer.need] at g1
        · rw [if_neg hc]; omega
    · have hc : i.count ≠ .star := by
        intro hc
        apply hfit
        simp only [avail, hc]
        exact Nat.mul_div_le _ _
      rw [if_neg hc] at hn ⊢
      refine .inr ⟨by omega, ?_⟩
      obtain ⟨m, e⟩ := unpackPart_short le limit i (A ++ R) A.length (avail i R.length)
        (by cases h : i.count with
          | one => exact .inl ⟨rfl, by simp [avail, h]⟩
          | times n => exact .inr (by simp [avail, h])
          | star => exact (hc h).elim) (by omega) (by simp; omega)
      exact ⟨m, by simp only [List.map_cons, unpackLoop]; rw [e]; rfl⟩

end Packer
end SPVM
