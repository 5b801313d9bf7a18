import Verif.Lemmas.Utf8
import Verif.Lemmas.NumList
import Verif.Props.Split
/-!
# UTF-8 (C19, C20, C46, C52)
-/
set_option linter.unusedSimpArgs false
set_option linter.unusedVariables false
namespace SPVM
namespace Utf8
open VM (Bytes)
open Spec.Utf8 (IsScalar encode encodeAll Stuck Valid trMap RangeOf)

/-! ## chr, ord -/

/-- **C19** (`chr`): defined exactly on the Unicode scalar values, and then their UTF-8 encoding. -/
theorem c19_chr : (∀ n : Nat, IsScalar n → chr n = some (encode n)) ∧
    (∀ i : Int, (∀ n : Nat, IsScalar n → i ≠ n) → chr i = none) := by
  refine ⟨chr_eq, fun i hi => ?_⟩
  unfold chr
  rw [if_neg]
  intro h
  have h0 : 0 ≤ i := by
    unfold FnStr.isScalar at h
    split at h
    · omega
    · cases h
  have := (isScalar_iff i.toNat).mp (by rw [Int.toNat_of_nonneg h0]; exact h)
  exact hi i.toNat this (by omega)

/-- **C19** (`ord` after `chr`): for every Unicode scalar value, `chr` is defined and `ord(chr(cp)) = cp`. -/
theorem c19_ord_chr (n : Nat) (h : IsScalar n) : ∃ s, chr n = some s ∧ ord (some s) = .ok (n : Int) := by
  refine ⟨encode n, chr_eq n h, ?_⟩
  have he := (encode_length n).1
  unfold ord
  have := getCodePoint_eq (encode n) 0 (by omega)
  have hd := dec_encode n h []
  rw [List.append_nil] at hd
  rw [List.drop_zero, hd] at this
  rw [show ((0 : Nat) : Int) = 0 from rfl] at this
  rw [this]

/-- **C19** (`ord`): the value of a string that begins with an encoded scalar value; every other string throws. -/
theorem c19_ord (s : Bytes) :
    (∀ n : Nat, ord (some s) = .ok (n : Int) ↔ IsScalar n ∧ encode n <+: s) ∧
    ((∀ n : Nat, IsScalar n → ¬ encode n <+: s) → ∃ m, ord (some s) = .die m) ∧
    (∀ i : Int, ord (some s) = .ok i → ∃ n : Nat, i = n) := by
  unfold ord
  cases s with
  | nil =>
    have e : getCodePoint (some []) 0 =
        (.die "The value of the offset $offset must be less than the length of the string $string.", 0) := rfl
    rw [e]
    refine ⟨fun n => ⟨fun h => (nomatch h), fun h => ?_⟩, fun _ => ⟨_, rfl⟩, fun i h => (nomatch h)⟩
    obtain ⟨_, t, ht⟩ := h
    have := (encode_length n).1
    rw [(List.append_eq_nil_iff.mp ht).1] at this
    simp at this
  | cons b t =>
    have := getCodePoint_eq (b :: t) 0 (by simp)
    rw [List.drop_zero, show ((0 : Nat) : Int) = 0 from rfl] at this
    rw [this]
    cases hd : dec (b :: t) with
    | none =>
      refine ⟨fun n => ⟨fun h => (nomatch h), fun h => absurd h.2 (dec_none hd n h.1)⟩, fun _ => ⟨_, rfl⟩, fun i h => (nomatch h)⟩
    | some p =>
      obtain ⟨cp, m⟩ := p
      obtain ⟨hs, _, u, hu⟩ := dec_sound hd
      refine ⟨fun n => ⟨fun h => ?_, fun h => ?_⟩, fun h => absurd ⟨u, hu.symm⟩ (h cp hs), fun i h => ?_⟩
      · simp at h
        have : cp = n := by omega
        subst this
        exact ⟨hs, u, hu.symm⟩
      · obtain ⟨hn, v, hv⟩ := h
        have := dec_encode n hn v
        rw [hv, hd] at this
        simp at this
        rw [this.1]
      · simp at h
        exact ⟨cp, h.symm⟩

/-- Non-vacuity of C19. -/
example : chr 0x3042 = some [0xE3, 0x81, 0x82] ∧ ord (some [0xE3, 0x81, 0x82]) = .ok 0x3042 := by decide +kernel
example : chr 0xD800 = none ∧ chr (-1) = none ∧ chr 0x110000 = none := by decide +kernel
example : IsScalar 0x10FFFF ∧ IsScalar 0xD7FF ∧ ¬ IsScalar 0xDFFF := by decide

/-! ## The decoder -/

/-- **C20** (`get_code_point`): at every offset inside every string, either the bytes there begin with the encoding of a
scalar value, which is returned while the offset moves past it, or they begin with no such encoding and an exception is
thrown with the offset unchanged.  The decoder is never undefined, although it is given the length of the whole string
and not of the rest. -/
theorem c20_decode (s : Bytes) (k : Nat) (hk : k < s.length) :
    (∃ cp, IsScalar cp ∧ encode cp <+: s.drop k ∧
      getCodePoint (some s) k = (.ok (cp : Int), ((k + (encode cp).length : Nat) : Int)) ∧ k + (encode cp).length ≤ s.length) ∨
    ((∀ cp, IsScalar cp → ¬ encode cp <+: s.drop k) ∧ getCodePoint (some s) k = (.die msgInvalid, (k : Int))) := by
  have e := getCodePoint_eq s k hk
  cases hd : dec (s.drop k) with
  | none =>
    rw [hd] at e
    exact .inr ⟨fun cp hc => dec_none hd cp hc, e⟩
  | some p =>
    obtain ⟨cp, n⟩ := p
    obtain ⟨h1, rfl, t, ht⟩ := dec_sound hd
    rw [hd] at e
    have := congrArg List.length ht
    simp at this
    exact .inl ⟨cp, h1, ⟨t, ht.symm⟩, e, by omega⟩

theorem readB_ok {block : Bytes} {i : Nat} (h : i < block.length) : ∃ c, readB block i = .ok c := by
  unfold readB
  rw [List.getElem?_eq_getElem h]
  exact ⟨_, rfl⟩

theorem conts_ok {block : Bytes} (n : Nat) {str : Nat} (h : str + n ≤ block.length) : ∃ b, conts block str n = .ok b := by
  induction n generalizing str with
  | zero => exact ⟨true, rfl⟩
  | succ n ih =>
    obtain ⟨c, e⟩ := readB_ok (show str < block.length by omega)
    simp only [conts, e, Out.ok_bind]
    split
    · exact ih (by omega)
    · exact ⟨false, rfl⟩

theorem haveConts_ok {block : Bytes} (n : Nat) {str : Nat} {end_ : Int} (hn : 0 < n) (h : end_ ≤ block.length) :
    ∃ b, haveConts block str end_ n = .ok b ∧ (b = true → (str : Int) + n ≤ end_) := by
  unfold haveConts
  split
  · exact ⟨false, rfl, by simp⟩
  · obtain ⟨b, e⟩ := conts_ok n (block := block) (str := str) (by omega)
    exact ⟨b, e, by omega⟩

/-- **C20** (memory safety of the decoder itself): given `len` bytes it reads nothing else - it is defined on a block that
ends right there, without a terminating NUL - and it never consumes more than it was given. -/
theorem c20_decoder_in_bounds (block : Bytes) (str len : Nat) (h : str + len ≤ block.length) :
    ∃ n dst, iterate (block.take (str + len)) str len = .ok (n, dst) ∧ n ≤ len ∧ (n = -3 ∨ 0 ≤ n) := by
  have hl : (block.take (str + len)).length = str + len := by simp; omega
  generalize block.take (str + len) = b at *
  unfold iterate
  by_cases h0 : (len : Int) = 0
  · rw [if_pos h0]; exact ⟨_, _, rfl, by omega, by omega⟩
  · rw [if_neg h0]
    obtain ⟨uc, e⟩ := readB_ok (show str < b.length by omega)
    rw [if_neg (by omega : ¬ (len : Int) < 0)]
    simp only [e, Out.ok_bind]
    split
    · exact ⟨_, _, rfl, by omega, by omega⟩
    · split
      · exact ⟨_, _, rfl, by omega, by omega⟩
      · split
        · obtain ⟨g, e1, hg⟩ := haveConts_ok 1 (block := b) (str := str + 1) (end_ := str + len) (by omega) (by omega)
          simp only [iterate2, e1, Out.ok_bind]
          cases g with
          | false => exact ⟨_, _, rfl, by omega, by omega⟩
          | true =>
            have := hg rfl
            obtain ⟨c, e2⟩ := readB_ok (show str + 1 < b.length by omega)
            simp only [e2, Out.ok_bind, not_true_eq_false, if_false]
            exact ⟨_, _, rfl, by omega, by omega⟩
        · split
          · obtain ⟨g, e1, hg⟩ := haveConts_ok 2 (block := b) (str := str + 1) (end_ := str + len) (by omega) (by omega)
            simp only [iterate3, e1, Out.ok_bind]
            cases g with
            | false => exact ⟨_, _, rfl, by omega, by omega⟩
            | true =>
              have := hg rfl
              obtain ⟨c, e2⟩ := readB_ok (show str + 1 < b.length by omega)
              obtain ⟨c', e3⟩ := readB_ok (show str + 1 + 1 < b.length by omega)
              simp only [e2, e3, Out.ok_bind, not_true_eq_false, if_false]
              split
              · exact ⟨_, _, rfl, by omega, by omega⟩
              · split <;> exact ⟨_, _, rfl, by omega, by omega⟩
          · obtain ⟨g, e1, hg⟩ := haveConts_ok 3 (block := b) (str := str + 1) (end_ := str + len) (by omega) (by omega)
            simp only [iterate4, e1, Out.ok_bind]
            cases g with
            | false => exact ⟨_, _, rfl, by omega, by omega⟩
            | true =>
              have := hg rfl
              obtain ⟨c, e2⟩ := readB_ok (show str + 1 < b.length by omega)
              obtain ⟨c', e3⟩ := readB_ok (show str + 1 + 1 < b.length by omega)
              obtain ⟨c'', e4⟩ := readB_ok (show str + 1 + 2 < b.length by omega)
              simp only [e2, e3, e4, Out.ok_bind, not_true_eq_false, if_false]
              split
              · exact ⟨_, _, rfl, by omega, by omega⟩
              · split <;> exact ⟨_, _, rfl, by omega, by omega⟩

/-- A three-byte character cut off after two bytes, with nothing behind it. -/
example : iterate [0xe3, 0x81] 0 2 = .ok (-3, -1) ∧ iterate [0xe3, 0x81, 0x82] 0 3 = .ok (3, 0x3042) := by decide

/-- **C20** (invalid arguments throw and leave the offset alone). -/
theorem c20_decode_throws (s : Option Bytes) (offset : Int)
    (h : s = none ∨ offset < 0 ∨ ∃ t, s = some t ∧ (t.length : Int) ≤ offset) :
    ∃ m, getCodePoint s offset = (.die m, offset) := by
  unfold getCodePoint
  cases s with
  | none => exact ⟨_, rfl⟩
  | some s =>
    simp only []
    split
    · exact ⟨_, rfl⟩
    · split
      · exact ⟨_, rfl⟩
      · simp at h
        omega

/-- **C20** (`look_code_point`): as `get_code_point`, and the offset never moves. -/
theorem c20_look (s : Option Bytes) (offset : Int) :
    (lookCodePoint s offset).1 = (getCodePoint s offset).1 ∧
    (∀ cp, (lookCodePoint s offset).1 = .ok cp → (lookCodePoint s offset).2 = offset) := by
  unfold lookCodePoint
  rw [Prog.get_bind_apply, Prog.bind_apply]
  cases h : getCodePoint s offset with
  | mk o off' =>
    cases o with
    | ok a => exact ⟨rfl, fun _ _ => rfl⟩
    | die m => exact ⟨rfl, fun cp h => by cases h⟩
    | ub => exact ⟨rfl, fun cp h => by cases h⟩

/-- **C20** (injectivity): two sequences of scalar values with the same encoding are equal. -/
theorem c20_encode_injective (a b : List Nat) (ha : ∀ c ∈ a, IsScalar c) (hb : ∀ c ∈ b, IsScalar c)
    (h : encodeAll a = encodeAll b) : a = b :=
  (decode_unique ha hb (.inl rfl) (.inl rfl) (by rw [h])).1

theorem not_valid_stuck {cps : List Nat} {rest : Bytes} (hc : ∀ c ∈ cps, IsScalar c) (hr : Stuck rest) :
    ¬ Valid (encodeAll cps ++ rest) := by
  rintro ⟨cps', hc', h⟩
  have := decode_unique hc hc' (.inr hr) (.inl rfl) (by rw [List.append_nil]; exact h)
  exact hr.1 this.2

/-- The loop over a whole string. -/
theorem cpLoop_whole {s : Bytes} (body : Int → Prog σ Bool) (cps : List Nat) (rest : Bytes)
    (hc : ∀ c ∈ cps, IsScalar c) (hs : s = encodeAll cps ++ rest) (hr : rest = [] ∨ Stuck rest) (st : σ) :
    cpLoop s body s.length 0 st = (do let go ← runCps body cps; afterCps rest go : Prog σ Unit) st := by
  have := cpLoop_eq (s := s) body cps rest [] s.length hc (by simpa using hs) hr (by simp) st
  simpa using this

/-! ## to_code_points -/

theorem pushNum_runCps {limit : Nat} (cps : List Nat) {l : NumList Int} {xs : List Int} (h : NumList.Rep l xs)
    (h1 : 2 * (xs.length + cps.length) ≤ limit) (h2 : 2 * (xs.length + cps.length) ≤ 2147483647) :
    ∃ l', runCps (fun cp => do NumList.push limit 0 cp; return true) cps l = (.ok true, l') ∧
      NumList.Rep l' (xs ++ cps.map (fun c : Nat => (c : Int))) := by
  induction cps generalizing l xs with
  | nil => exact ⟨l, rfl, by simpa using h⟩
  | cons c cps ih =>
    simp only [List.length_cons] at h1 h2
    have hlen := h.len
    obtain ⟨s1, e1, r1, hm⟩ := NumList.maybeExtend_ok (limit := limit) (zero := (0 : Int)) h (m := l.length + 1) (by omega) (by omega)
    obtain ⟨l1, e2, r2⟩ := NumList.push_ok h (c : Int) e1 r1 hm
    obtain ⟨l2, e3, r3⟩ := ih r2 (by simp; omega) (by simp; omega)
    refine ⟨l2, ?_, by simpa [List.append_assoc] using r3⟩
    unfold runCps
    rw [Prog.bind_ok (a := true) (s' := l1)]
    · exact e3
    · rw [Prog.bind_ok e2]; rfl

/-- **C20** (`to_code_points`): for every string, the code points of which it is the encoding, and an exception if there
are none. -/
theorem c20_to_code_points (limit : Nat) (h4 : 4 ≤ limit) (s : Bytes) (h1 : 2 * s.length ≤ limit)
    (h2 : 2 * s.length ≤ 2147483647) :
    (∀ cps, (∀ c ∈ cps, IsScalar c) → s = encodeAll cps → toCodePoints limit (some s) = .ok (cps.map (fun c : Nat => (c : Int)))) ∧
    (¬ Valid s → toCodePoints limit (some s) = .die msgInvalid) := by
  have key : ∀ cps rest, (∀ c ∈ cps, IsScalar c) → s = encodeAll cps ++ rest → (rest = [] ∨ Stuck rest) →
      toCodePoints limit (some s) = if rest = [] then .ok (cps.map (fun c : Nat => (c : Int))) else .die msgInvalid := by
    intro cps rest hc hs hr
    have hge := encodeAll_length_ge cps
    have hsl : s.length = (encodeAll cps).length + rest.length := by rw [hs]; simp
    obtain ⟨l, el, rl⟩ := NumList.new_ok (α := Int) (limit := limit) (zero := 0) (a := none) (c := -1) (by simp; omega) (by simp; omega)
    obtain ⟨l', e', r'⟩ := pushNum_runCps (limit := limit) cps rl (by simp; omega) (by simp; omega)
    unfold toCodePoints
    simp only []
    rw [el, Out.ok_bind, Prog.bind_apply, cpLoop_whole _ cps rest hc hs hr, Prog.bind_ok e']
    unfold afterCps
    rw [if_pos rfl]
    by_cases hrest : rest = []
    · rw [if_pos hrest, if_pos hrest]
      simp only [Prog.pure_apply]
      rw [NumList.toArray_ok r' (by simp; omega)]
      simp
    · rw [if_neg hrest, if_neg hrest]
      rfl
  refine ⟨fun cps hc hs => ?_, fun hv => ?_⟩
  · have := key cps [] hc (by simpa using hs) (.inl rfl)
    simpa using this
  · obtain ⟨cps, rest, hc, hs, hr⟩ := exists_decode s
    have := key cps rest hc hs hr
    rw [if_neg] at this
    · exact this
    · rintro rfl
      exact hv ⟨cps, hc, by simpa using hs⟩

/-- Non-vacuity of C20. -/
example : toCodePoints 100 (some [97, 0xE3, 0x81, 0x82, 0xF0, 0x9F, 0x98, 0x80]) = .ok [97, 0x3042, 0x1F600] := by
  decide +kernel
example : toCodePoints 100 (some [97, 0xC0, 0x80]) = .die msgInvalid := by decide +kernel
example : getCodePoint (some [97, 98, 0xE3, 0x81]) 2 = (.die msgInvalid, 2) := by decide +kernel
example : Valid [97, 0xE3, 0x81, 0x82] := ⟨[97, 0x3042], by decide, by decide⟩

/-! ## utf8_length, to_utf8_chars -/

theorem length_runCps (cps : List Nat) (n : Int) (h0 : 0 ≤ n) (h : n + cps.length ≤ 2147483647) :
    runCps (fun _ => do
        let n ← Prog.get
        let n' ← Prog.lift (add32 n 1)
        Prog.set n'
        return true) cps n = (.ok true, n + cps.length) := by
  induction cps generalizing n with
  | nil => simp [runCps]
  | cons c cps ih =>
    simp only [List.length_cons] at h
    unfold runCps
    rw [Prog.bind_ok (a := true) (s' := n + 1)]
    · simp only [if_true]
      rw [ih (n + 1) (by omega) (by omega)]
      simp
      omega
    · rw [Prog.get_bind_apply, add32_ok (by unfold I32; omega)]
      rfl

/-- **C52** (`utf8_length`): the number of encoded code points; an invalid string throws. -/
theorem c52_utf8_length (s : Bytes) (hs : s.length ≤ 2147483647) :
    (∀ cps, (∀ c ∈ cps, IsScalar c) → s = encodeAll cps → utf8Length (some s) = .ok (cps.length : Int)) ∧
    (¬ Valid s → utf8Length (some s) = .die msgInvalid) := by
  have key : ∀ cps rest, (∀ c ∈ cps, IsScalar c) → s = encodeAll cps ++ rest → (rest = [] ∨ Stuck rest) →
      utf8Length (some s) = if rest = [] then .ok (cps.length : Int) else .die msgInvalid := by
    intro cps rest hc hse hr
    have hge := encodeAll_length_ge cps
    have hsl : s.length = (encodeAll cps).length + rest.length := by rw [hse]; simp
    unfold utf8Length
    simp only []
    rw [Prog.bind_apply, cpLoop_whole _ cps rest hc hse hr, Prog.bind_ok (length_runCps cps 0 (by omega) (by omega))]
    unfold afterCps
    rw [if_pos rfl]
    by_cases hrest : rest = []
    · rw [if_pos hrest, if_pos hrest]
      simp
    · rw [if_neg hrest, if_neg hrest]
      rfl
  refine ⟨fun cps hc hse => ?_, fun hv => ?_⟩
  · have := key cps [] hc (by simpa using hse) (.inl rfl)
    simpa using this
  · obtain ⟨cps, rest, hc, hse, hr⟩ := exists_decode s
    have := key cps rest hc hse hr
    rw [if_neg] at this
    · exact this
    · rintro rfl
      exact hv ⟨cps, hc, by simpa using hse⟩

theorem pushObj_runCps {limit : Nat} (hlim : limit ≤ 1073741824) (cps : List Nat) (hc : ∀ c ∈ cps, IsScalar c)
    {l : ObjList Bytes} {xs rest} (h : ObjList.Rep limit (fun _ => true) l xs rest)
    (h1 : 2 * (xs.length + cps.length) ≤ limit) :
    ∃ l' rest', runCps (fun cp => do ObjList.push limit (fun _ => true) (chr cp); return true) cps l = (.ok true, l') ∧
      ObjList.Rep limit (fun _ => true) l' (xs ++ cps.map (fun c => some (encode c))) rest' := by
  induction cps generalizing l xs rest with
  | nil => exact ⟨l, rest, rfl, by simpa using h⟩
  | cons c cps ih =>
    simp only [List.length_cons] at h1
    obtain ⟨l1, r1, e1, h2⟩ := ArrayOps.push_spec hlim h (some (encode c)) (by simp) (by omega)
    obtain ⟨l2, r2, e2, h3⟩ := ih (fun c h => hc c (by simp [h])) h2 (by simp; omega)
    refine ⟨l2, r2, ?_, by simpa [List.append_assoc] using h3⟩
    unfold runCps
    rw [Prog.bind_ok (a := true) (s' := l1)]
    · exact e2
    · rw [chr_eq c (hc c (by simp)), Prog.bind_ok e1]; rfl

/-- **C52** (`to_utf8_chars`): the single encoded characters in order; an invalid string throws. -/
theorem c52_to_utf8_chars (limit : Nat) (hlim : limit ≤ 1073741824) (h4 : 4 ≤ limit) (s : Bytes) (h1 : 2 * s.length ≤ limit) :
    (∀ cps, (∀ c ∈ cps, IsScalar c) → s = encodeAll cps →
      toUtf8Chars limit (some s) = .ok (cps.map (fun c => some (encode c)))) ∧
    (¬ Valid s → toUtf8Chars limit (some s) = .die msgInvalid) := by
  have key : ∀ cps rest, (∀ c ∈ cps, IsScalar c) → s = encodeAll cps ++ rest → (rest = [] ∨ Stuck rest) →
      toUtf8Chars limit (some s) = if rest = [] then .ok (cps.map (fun c => some (encode c))) else .die msgInvalid := by
    intro cps rest hc hs hr
    have hge := encodeAll_length_ge cps
    have hsl : s.length = (encodeAll cps).length + rest.length := by rw [hs]; simp
    obtain ⟨l, el⟩ := ObjList.newLen_succeeds (α := Bytes) (limit := limit) (n := 0) (c := -1) (by omega) (by omega)
    obtain ⟨_, k, r, _⟩ := ObjList.newLen_ok (accept := fun _ => true) el
    obtain ⟨l', rest', e', r'⟩ := pushObj_runCps hlim cps hc r (by simp; omega)
    unfold toUtf8Chars
    simp only []
    rw [el, Out.ok_bind, Prog.bind_apply, cpLoop_whole _ cps rest hc hs hr, Prog.bind_ok e']
    unfold afterCps
    rw [if_pos rfl]
    by_cases hrest : rest = []
    · rw [if_pos hrest, if_pos hrest]
      simp only [Prog.pure_apply]
      rw [ObjList.toArray_ok hlim r']
      simp
    · rw [if_neg hrest, if_neg hrest]
      rfl
  refine ⟨fun cps hc hs => ?_, fun hv => ?_⟩
  · have := key cps [] hc (by simpa using hs) (.inl rfl)
    simpa using this
  · obtain ⟨cps, rest, hc, hs, hr⟩ := exists_decode s
    have := key cps rest hc hs hr
    rw [if_neg] at this
    · exact this
    · rintro rfl
      exact hv ⟨cps, hc, by simpa using hs⟩

/-! ## utf8_substr -/

theorem runCps_append (body : Int → Prog σ Bool) (a b : List Nat) {st st' : σ} (h : runCps body a st = (.ok true, st')) :
    runCps body (a ++ b) st = runCps body b st' := by
  induction a generalizing st with
  | nil =>
    simp [runCps] at h
    rw [h]; rfl
  | cons c a ih =>
    rw [List.cons_append]
    rw [runCps, Prog.bind_apply] at h ⊢
    cases hb : body c st with
    | mk o st1 =>
      rw [hb] at h
      cases o with
      | ok go =>
        cases go with
        | true => exact ih h
        | false => simp at h
      | die m => simp at h
      | ub => simp at h

theorem bufPush_ok {limit : Nat} (hlim : limit ≤ 2147483646) {st : SubState} {xs rest : Bytes}
    (h : StrBuf.Rep limit st.buffer xs rest) (s : Bytes) (hroom : 2 * (xs.length + s.length) ≤ limit) :
    ∃ b rest', bufPush limit (some s) st = (.ok (), { st with buffer := b }) ∧ StrBuf.Rep limit b (xs ++ s) rest' := by
  obtain ⟨b, rest', e, r⟩ := FnStr.push_room hlim h s hroom
  refine ⟨b, rest', ?_, r⟩
  unfold bufPush
  rw [e]

theorem substr_runCps {limit : Nat} (hlim : limit ≤ 2147483646) (o len : Int) (h0 : 0 ≤ o) (cps : List Nat)
    (hc : ∀ c ∈ cps, IsScalar c) {st : SubState} {xs rest : Bytes} (h : StrBuf.Rep limit st.buffer xs rest)
    (hcur : 0 ≤ st.current) (hmax : st.current + cps.length ≤ 2147483647)
    (hroom : 2 * (xs.length + (encodeAll cps).length) ≤ limit)
    (hin : len < 0 ∨ I32 (o + len) ∧ st.current + cps.length ≤ o + len) :
    ∃ b rest', runCps (substrBody limit o len) cps st = (.ok true, ⟨b, st.current + cps.length⟩) ∧
      StrBuf.Rep limit b (xs ++ encodeAll (cps.drop (o - st.current).toNat)) rest' := by
  induction cps generalizing st xs rest with
  | nil =>
    refine ⟨st.buffer, rest, ?_, by simpa [encodeAll] using h⟩
    simp [runCps]
  | cons c cps ih =>
    simp only [List.length_cons] at hmax hin
    rw [encodeAll_cons, List.length_append] at hroom
    by_cases hbef : st.current < o
    · obtain ⟨b, rest', e, r⟩ := ih (st := ⟨st.buffer, st.current + 1⟩) (fun c h => hc c (by simp [h])) h
        (by simp only []; omega) (by simp only []; omega) (by omega)
        (hin.imp id (fun h => ⟨h.1, by simp only []; omega⟩))
      refine ⟨b, rest', ?_, ?_⟩
      · unfold runCps
        rw [Prog.bind_ok (a := true) (s' := ⟨st.buffer, st.current + 1⟩)]
        · simp only [if_true]
          rw [e]
          simp only [List.length_cons]
          congr 2
          omega
        · unfold substrBody rangeOf
          rw [Prog.get_bind_apply, if_pos hbef, Prog.lift_ok_bind, if_neg (by omega), if_neg (by omega)]
          unfold incCurrent
          rw [Prog.get_bind_apply, add32_ok (by unfold I32; omega)]
          rfl
      · have : (o - st.current).toNat = (o - (st.current + 1)).toNat + 1 := by omega
        rw [this, List.drop_succ_cons]
        exact r
    · have hrange : rangeOf o len st.current = .ok 0 := by
        unfold rangeOf
        rw [if_neg hbef]
        rcases hin with hneg | ⟨hI, hle⟩
        · rw [if_pos hneg]
        · by_cases hneg : len < 0
          · rw [if_pos hneg]
          · rw [if_neg hneg, add32_ok hI, Out.ok_bind, if_pos (by omega)]
      obtain ⟨b1, rest1, e1, r1⟩ := bufPush_ok hlim h (encode c) (by omega)
      obtain ⟨b, rest', e, r⟩ := ih (st := ⟨b1, st.current + 1⟩) (fun c h => hc c (by simp [h])) r1
        (by simp only []; omega) (by simp only []; omega) (by simp only [List.length_append]; omega)
        (hin.imp id (fun h => ⟨h.1, by simp only []; omega⟩))
      refine ⟨b, rest', ?_, ?_⟩
      · unfold runCps
        rw [Prog.bind_ok (a := true) (s' := ⟨b1, st.current + 1⟩)]
        · simp only [if_true]
          rw [e]
          simp only [List.length_cons]
          congr 2
          omega
        · unfold substrBody
          rw [Prog.get_bind_apply, hrange, Prog.lift_ok_bind, if_pos rfl, chr_eq c (hc c (by simp)), Prog.bind_ok e1]
          unfold incCurrent
          rw [Prog.get_bind_apply]
          simp only []
          rw [add32_ok (by unfold I32; omega)]
          rfl
      · have h1 : (o - st.current).toNat = 0 := by omega
        have h2 : (o - (st.current + 1)).toNat = 0 := by omega
        rw [h2, List.drop_zero] at r
        rw [h1, List.drop_zero, encodeAll_cons, ← List.append_assoc]
        exact r

/-- What the loop of `utf8_substr` leaves, when the range ends inside the string. -/
theorem substr_runCps_last {limit : Nat} (hlim : limit ≤ 2147483646) (o len : Int) (h0 : 0 ≤ o) (hl : 0 ≤ len) (hI : I32 (o + len))
    (a : List Nat) (d : Nat) (b : List Nat) (hc : ∀ c ∈ a, IsScalar c) {st : SubState} {xs rest : Bytes}
    (h : StrBuf.Rep limit st.buffer xs rest) (hcur : st.current = 0) (ha : (a.length : Int) = o + len)
    (hroom : 2 * (xs.length + (encodeAll a).length) ≤ limit) :
    ∃ b' rest', runCps (substrBody limit o len) (a ++ d :: b) st = (.ok false, ⟨b', o + len⟩) ∧
      StrBuf.Rep limit b' (xs ++ encodeAll (a.drop o.toNat)) rest' := by
  have hI' := hI
  unfold I32 at hI'
  obtain ⟨b', rest', e, r⟩ := substr_runCps hlim o len h0 a hc h (by omega) (by omega) hroom (.inr ⟨hI, by omega⟩)
  refine ⟨b', rest', ?_, ?_⟩
  · rw [runCps_append _ a (d :: b) e]
    unfold runCps
    rw [Prog.bind_ok (a := false) (s' := ⟨b', st.current + a.length⟩)]
    · simp only [Bool.false_eq_true, if_false, Prog.pure_apply]
      congr 2
      omega
    · unfold substrBody rangeOf
      rw [Prog.get_bind_apply]
      simp only []
      rw [if_neg (by omega), if_neg (by omega), add32_ok hI, Out.ok_bind, if_neg (by omega), Prog.lift_ok_bind,
        if_neg (by omega), if_pos rfl]
      rfl
  · rw [hcur, Int.sub_zero] at r
    exact r

/-- All cases of `utf8_substr` with a non-overflowing range. -/
theorem utf8Substr_key (limit : Nat) (hlim : limit ≤ 2147483646) (h4 : 4 ≤ limit) (s : Bytes) (hroom : 2 * s.length ≤ limit)
    (cps : List Nat) (rest : Bytes) (hc : ∀ c ∈ cps, IsScalar c) (hs : s = encodeAll cps ++ rest) (hr : rest = [] ∨ Stuck rest)
    (o len : Int) (h0 : 0 ≤ o) (hI : len < 0 ∨ I32 (o + len)) :
    utf8Substr limit (some s) o len =
      if len ≥ 0 ∧ o + len < cps.length then .ok (encodeAll ((cps.drop o.toNat).take len.toNat))
      else if rest ≠ [] then .die msgInvalid
      else if len < 0 then .ok (encodeAll (cps.drop o.toNat))
      else if o + len = cps.length then .ok (encodeAll (cps.drop o.toNat))
      else .die "The offset $utf8_offset + the length $utf8_length must be less than or equal to the UTF-8 length of the string $string." := by
  have hge := encodeAll_length_ge cps
  have hsl : s.length = (encodeAll cps).length + rest.length := by rw [hs]; simp
  obtain ⟨b, k, e, r⟩ := StrBuf.new_ok hlim none (-1) (by simp; omega)
  unfold utf8Substr
  simp only []
  rw [if_neg (by omega), e, Out.ok_bind]
  unfold substrRun
  simp only []
  rw [cpLoop_whole _ cps rest hc hs hr]
  by_cases hcase : len ≥ 0 ∧ o + len < cps.length
  · have hI' := hI.resolve_left (by omega)
    rw [if_pos hcase]
    have hm : (o + len).toNat < cps.length := by omega
    have hcps : cps = cps.take (o + len).toNat ++ cps[(o + len).toNat] :: cps.drop ((o + len).toNat + 1) := by
      rw [← List.drop_eq_getElem_cons hm, List.take_append_drop]
    have hlt : (encodeAll (cps.take (o + len).toNat)).length ≤ (encodeAll cps).length := by
      conv => rhs; rw [hcps]
      rw [encodeAll_append, List.length_append]
      omega
    obtain ⟨b', rest', e', r'⟩ := substr_runCps_last hlim o len h0 (by omega) hI' (cps.take (o + len).toNat) cps[(o + len).toNat]
      (cps.drop ((o + len).toNat + 1)) (fun c h => hc c (List.mem_of_mem_take h)) (st := ⟨b, 0⟩) r rfl (by simp; omega)
      (by simp; omega)
    rw [← hcps] at e'
    rw [Prog.bind_ok e']
    simp only [afterCps, Bool.false_eq_true, if_false, Prog.pure_apply, Out.ok_bind]
    unfold substrCheck
    rw [if_pos hcase.1, add32_ok hI', Out.ok_bind, if_neg (by omega), Out.ok_bind, StrBuf.toString_ok hlim r']
    simp only [Option.getD_none, List.nil_append]
    congr 2
    rw [List.drop_take]
    congr 1
    omega
  · rw [if_neg hcase]
    obtain ⟨b', rest', e', r'⟩ := substr_runCps hlim o (if len ≥ 0 ∧ cps.length < o + len then len else len) h0 cps hc (st := ⟨b, 0⟩) r
      (by simp) (by simp; omega) (by simp; omega) (by
        simp only [ite_self]
        by_cases hneg : len < 0
        · exact .inl hneg
        · refine .inr ⟨hI.resolve_left hneg, ?_⟩
          simp only [Int.zero_add]
          omega)
    simp only [ite_self, Int.zero_add, Int.sub_zero] at e' r'
    rw [Prog.bind_ok e']
    unfold afterCps
    rw [if_pos rfl]
    by_cases hrest : rest = []
    · rw [if_pos hrest, if_neg (by simpa using hrest)]
      simp only [Prog.pure_apply, Out.ok_bind]
      unfold substrCheck
      by_cases hneg : len < 0
      · rw [if_neg (by omega), if_pos hneg, Out.ok_bind, StrBuf.toString_ok hlim r']
        simp
      · have hI' := hI.resolve_left hneg
        rw [if_pos (by omega), if_neg hneg, add32_ok hI', Out.ok_bind]
        by_cases heq : o + len = cps.length
        · rw [if_neg (by omega), if_pos heq, Out.ok_bind, StrBuf.toString_ok hlim r']
          simp
        · rw [if_pos (by omega), if_neg heq]
          rfl
    · rw [if_neg hrest, if_pos hrest]
      rfl

/-- **C52** (`utf8_substr` of a valid string): the characters of the range; a range that leaves the string throws; a
negative length means up to the end. -/
theorem c52_utf8_substr (limit : Nat) (hlim : limit ≤ 2147483646) (h4 : 4 ≤ limit) (cps : List Nat)
    (hc : ∀ c ∈ cps, IsScalar c) (hroom : 2 * (encodeAll cps).length ≤ limit) (o len : Int) (h0 : 0 ≤ o) :
    (0 ≤ len → o + len ≤ cps.length →
      utf8Substr limit (some (encodeAll cps)) o len = .ok (encodeAll ((cps.drop o.toNat).take len.toNat))) ∧
    (0 ≤ len → I32 (o + len) → cps.length < o + len → ∃ m, utf8Substr limit (some (encodeAll cps)) o len = .die m) ∧
    (len < 0 → utf8Substr limit (some (encodeAll cps)) o len = .ok (encodeAll (cps.drop o.toNat))) := by
  have hge := encodeAll_length_ge cps
  refine ⟨fun hl hle => ?_, fun hl hI hlt => ?_, fun hneg => ?_⟩
  · have key := utf8Substr_key limit hlim h4 _ hroom cps [] hc (by simp) (.inl rfl) o len h0 (.inr (by unfold I32; omega))
    rw [key]
    by_cases h : o + len < cps.length
    · rw [if_pos ⟨hl, h⟩]
    · rw [if_neg (by omega), if_neg (by simp), if_neg (by omega), if_pos (by omega)]
      rw [List.take_of_length_le (by simp; omega)]
  · have key := utf8Substr_key limit hlim h4 _ hroom cps [] hc (by simp) (.inl rfl) o len h0 (.inr hI)
    rw [key, if_neg (by omega), if_neg (by simp), if_neg (by omega), if_neg (by omega)]
    exact ⟨_, rfl⟩
  · have key := utf8Substr_key limit hlim h4 _ hroom cps [] hc (by simp) (.inl rfl) o len h0 (.inl hneg)
    rw [key, if_neg (by omega), if_neg (by simp), if_pos hneg]

/-- **C52** (deviation): with an invalid string `utf8_substr` throws exactly when the range does not end before the last
decodable character: the documentation promises an exception for every invalid string. -/
theorem c52_utf8_substr_invalid_violated (limit : Nat) (hlim : limit ≤ 2147483646) (h4 : 4 ≤ limit) (cps : List Nat) (rest : Bytes)
    (hc : ∀ c ∈ cps, IsScalar c) (hr : Stuck rest) (hroom : 2 * (encodeAll cps ++ rest).length ≤ limit) (o len : Int) (h0 : 0 ≤ o)
    (hl : 0 ≤ len) (hI : I32 (o + len)) :
    utf8Substr limit (some (encodeAll cps ++ rest)) o len =
      if o + len < cps.length then .ok (encodeAll ((cps.drop o.toNat).take len.toNat)) else .die msgInvalid := by
  rw [utf8Substr_key limit hlim h4 _ hroom cps rest hc rfl (.inr hr) o len h0 (.inr hI)]
  by_cases h : o + len < cps.length
  · rw [if_pos ⟨by omega, h⟩, if_pos h]
  · rw [if_neg (by omega), if_pos hr.1, if_neg h]

/-- **C52** (undefined strings and negative offsets throw). -/
theorem c52_throws (limit : Nat) (s : Option Bytes) (o len : Int) :
    utf8Length none = .die "The string $string must be defined." ∧
    toUtf8Chars limit none = .die "The string $string must be defined." ∧
    toCodePoints limit none = .die "The string $string must be defined." ∧
    (s = none ∨ o < 0 → ∃ m, utf8Substr limit s o len = .die m) := by
  refine ⟨rfl, rfl, rfl, fun h => ?_⟩
  cases s with
  | none => exact ⟨_, rfl⟩
  | some s =>
    simp at h
    unfold utf8Substr
    simp only []
    rw [if_pos (by omega)]
    exact ⟨_, rfl⟩

/-- Non-vacuity of C52. -/
example : utf8Substr 100 (some [97, 0xE3, 0x81, 0x82, 98, 99]) 1 2 = .ok [0xE3, 0x81, 0x82, 98] := by decide +kernel
example : utf8Length (some [97, 0xE3, 0x81, 0x82, 98, 99]) = .ok 4 := by decide +kernel
example : toUtf8Chars 100 (some [97, 0xE3, 0x81, 0x82]) = .ok [some [97], some [0xE3, 0x81, 0x82]] := by decide +kernel
example : utf8Substr 100 (some [97, 98, 99, 0xFF]) 0 1 = .ok [97] := by decide +kernel

/-! ## tr -/

theorem range_runCps_tail (cps : List Nat) (min max : Int) (i : Int) (hi : 3 ≤ i) (hmax : i + cps.length ≤ 2147483647) :
    runCps rangeBody cps ⟨min, max, i⟩ = (.ok true, ⟨min, max, i + cps.length⟩) := by
  induction cps generalizing i with
  | nil => simp [runCps]
  | cons c cps ih =>
    simp only [List.length_cons] at hmax
    unfold runCps
    rw [Prog.bind_ok (a := true) (s' := ⟨min, max, i + 1⟩)]
    · simp only [if_true]
      rw [ih (i + 1) (by omega) (by omega)]
      simp only [List.length_cons]
      congr 2
      omega
    · unfold rangeBody
      simp only []
      rw [if_neg (by omega), if_neg (by omega), if_neg (by omega), add32_ok (by unfold I32; omega)]

theorem runCps_cons {body : Int → Prog σ Bool} {c : Nat} {cps : List Nat} {st st' : σ} (h : body c st = (.ok true, st')) :
    runCps body (c :: cps) st = runCps body cps st' := by
  rw [runCps, Prog.bind_ok h]; rfl

theorem runCps_die {body : Int → Prog σ Bool} {c : Nat} {cps : List Nat} {st st' : σ} {m : String}
    (h : body c st = (.die m, st')) : runCps body (c :: cps) st = (.die m, st') := by
  rw [runCps, Prog.bind_die h]

theorem range0 (a : Nat) : rangeBody a ⟨-1, -1, 0⟩ = (.ok true, ⟨a, -1, 1⟩) := rfl
theorem range1 (a : Nat) : rangeBody (45 : Nat) ⟨a, -1, 1⟩ = (.ok true, ⟨a, -1, 2⟩) := rfl
theorem range2 (a b : Nat) : rangeBody b ⟨a, -1, 2⟩ = (.ok true, ⟨a, b, 3⟩) := rfl
theorem range1' (a d : Nat) (h : d ≠ 45) : rangeBody d ⟨a, -1, 1⟩ =
    (.die "The second character ot the range format of the argument name $arg_name must be \"-\".", ⟨a, -1, 1⟩) := by
  unfold rangeBody
  simp only []
  rw [if_neg (by omega), if_pos trivial, if_pos (by omega)]

/-- The outcome of `_parse_range` on the code points of the pattern. -/
def rangeSpec : List Nat → Option (Nat × Nat)
  | [a] => some (a, a)
  | a :: d :: b :: _ => if d = 45 ∧ a ≤ b then some (a, b) else none
  | _ => none

theorem parseRange_key (p : Bytes) (hp : p.length ≤ 2147483647) (cps : List Nat) (rest : Bytes) (hc : ∀ c ∈ cps, IsScalar c)
    (hs : p = encodeAll cps ++ rest) (hr : rest = [] ∨ Stuck rest) :
    (∀ a b, rest = [] → rangeSpec cps = some (a, b) → parseRange p = .ok ((a : Int), (b : Int))) ∧
    ((rest ≠ [] ∨ rangeSpec cps = none) → ∃ m, parseRange p = .die m) := by
  have hge := encodeAll_length_ge cps
  have hsl : p.length = (encodeAll cps).length + rest.length := by rw [hs]; simp
  unfold parseRange
  simp only []
  rw [cpLoop_whole _ cps rest hc hs hr]
  have hafter : ∀ st : RangeState, runCps rangeBody cps ⟨-1, -1, 0⟩ = (.ok true, st) →
      (do
        let _ ← ((do let go ← runCps rangeBody cps; afterCps rest go : Prog RangeState Unit) ⟨-1, -1, 0⟩).1
        rangeEnd ((do let go ← runCps rangeBody cps; afterCps rest go : Prog RangeState Unit) ⟨-1, -1, 0⟩).2 : Out (Int × Int)) =
      if rest = [] then rangeEnd st else .die msgInvalid := by
    intro st h
    rw [Prog.bind_ok h]
    unfold afterCps
    rw [if_pos rfl]
    by_cases hrest : rest = []
    · rw [if_pos hrest, if_pos hrest]; rfl
    · rw [if_neg hrest, if_neg hrest]; rfl
  match cps, hge, hafter with
  | [], _, hafter =>
    rw [hafter ⟨-1, -1, 0⟩ rfl]
    refine ⟨fun a b _ h => (nomatch h), fun _ => ?_⟩
    split
    · exact ⟨_, rfl⟩
    · exact ⟨_, rfl⟩
  | [a], _, hafter =>
    rw [hafter ⟨a, -1, 1⟩ rfl]
    refine ⟨fun x y hrest h => ?_, fun h => ?_⟩
    · simp only [rangeSpec, Option.some.injEq, Prod.mk.injEq] at h
      obtain ⟨rfl, rfl⟩ := h
      rw [if_pos hrest]
      simp [rangeEnd]
    · rw [if_neg (h.resolve_right (by simp [rangeSpec]))]
      exact ⟨_, rfl⟩
  | [a, d], _, hafter =>
    refine ⟨fun x y hrest h => (nomatch h), fun _ => ?_⟩
    by_cases hd : d = 45
    · subst hd
      rw [hafter ⟨a, -1, 2⟩ rfl]
      split
      · simp [rangeEnd]
      · exact ⟨_, rfl⟩
    · have e : runCps rangeBody [a, d] ⟨-1, -1, 0⟩ =
          (.die "The second character ot the range format of the argument name $arg_name must be \"-\".", ⟨a, -1, 1⟩) := by
        rw [runCps_cons (range0 a), runCps_die (range1' a d (by omega))]
      rw [Prog.bind_die e]
      exact ⟨_, rfl⟩
  | a :: d :: b :: more, hge, hafter =>
    by_cases hd : d = 45
    · subst hd
      have e : runCps rangeBody (a :: 45 :: b :: more) ⟨-1, -1, 0⟩ = (.ok true, ⟨a, b, 3 + more.length⟩) := by
        rw [runCps_cons (range0 a), runCps_cons (range1 a), runCps_cons (range2 a b)]
        simp only [List.length_cons] at hge
        exact range_runCps_tail more a b 3 (by omega) (by omega)
      rw [hafter _ e]
      have hend : rangeEnd ⟨a, b, 3 + more.length⟩ =
          if a ≤ b then .ok ((a : Int), (b : Int)) else .die "The code point of the ending character in the argument name $arg_name must be greater than or equal to the code point of the begining caharater." := by
        unfold rangeEnd
        simp only []
        have h1 : ¬ (¬ (3 + (more.length : Int)) = 3 ∧ 3 + (more.length : Int) = 1) := by omega
        simp only [if_neg h1]
        rw [if_neg (by omega)]
        by_cases hab : a ≤ b
        · rw [if_neg (by omega), if_pos hab]
        · rw [if_pos (by omega), if_neg hab]
      rw [hend]
      refine ⟨fun x y hrest h => ?_, fun h => ?_⟩
      · simp only [rangeSpec] at h
        split at h
        · rename_i hh
          simp only [Option.some.injEq, Prod.mk.injEq] at h
          obtain ⟨rfl, rfl⟩ := h
          rw [if_pos hrest, if_pos hh.2]
        · cases h
      · by_cases hrest : rest = []
        · rw [if_pos hrest]
          have := h.resolve_left (by simpa using hrest)
          simp only [rangeSpec, true_and] at this
          by_cases hab : a ≤ b
          · rw [if_pos hab] at this; cases this
          · rw [if_neg hab]; exact ⟨_, rfl⟩
        · rw [if_neg hrest]
          exact ⟨_, rfl⟩
    · refine ⟨fun x y hrest h => ?_, fun _ => ?_⟩
      · simp only [rangeSpec] at h
        rw [if_neg (by omega)] at h
        cases h
      · have e : runCps rangeBody (a :: d :: b :: more) ⟨-1, -1, 0⟩ =
            (.die "The second character ot the range format of the argument name $arg_name must be \"-\".", ⟨a, -1, 1⟩) := by
          rw [runCps_cons (range0 a), runCps_die (range1' a d (by omega))]
        rw [Prog.bind_die e]
        exact ⟨_, rfl⟩

theorem parseRange_ok {p : Bytes} {min max : Nat} (hp : p.length ≤ 2147483647) (h : RangeOf p min max) :
    parseRange p = .ok ((min : Int), (max : Int)) := by
  obtain ⟨h1, h2, hle, h | h⟩ := h
  · obtain ⟨rfl, rfl⟩ := h
    refine (parseRange_key _ hp [max] [] (by simpa using h1) (by simp [encodeAll]) (.inl rfl)).1 _ _ rfl rfl
  · subst h
    refine (parseRange_key _ hp [min, 45, max] [] ?_ ?_ (.inl rfl)).1 _ _ rfl ?_
    · intro c hc
      simp at hc
      rcases hc with rfl | rfl | rfl
      · exact h1
      · decide
      · exact h2
    · have : encode 45 = [45] := rfl
      simp [encodeAll, this]
    · simp [rangeSpec, hle]

theorem tr_runCps {limit : Nat} (hlim : limit ≤ 2147483646) (min max rmin rmax : Nat) (hmin : min < 0x110000) (hrm : rmin < 0x110000)
    (cps : List Nat) (hc : ∀ c ∈ cps, IsScalar c) (hm : ∀ c ∈ cps, IsScalar (trMap min max rmin c)) {b : StrBuf} {xs rest : Bytes}
    (h : StrBuf.Rep limit b xs rest) (hroom : 2 * (xs.length + (encodeAll (cps.map (trMap min max rmin))).length) ≤ limit) :
    ∃ b' rest', runCps (trBody limit (min, max) (rmin, rmax)) cps b = (.ok true, b') ∧
      StrBuf.Rep limit b' (xs ++ encodeAll (cps.map (trMap min max rmin))) rest' := by
  induction cps generalizing b xs rest with
  | nil => exact ⟨b, rest, rfl, by simpa [encodeAll] using h⟩
  | cons c cps ih =>
    rw [List.map_cons, encodeAll_cons] at hroom ⊢
    simp only [List.length_append] at hroom
    obtain ⟨b1, r1, e1, h1⟩ := FnStr.push_room hlim h (encode (trMap min max rmin c)) (by omega)
    obtain ⟨b2, r2, e2, h2⟩ := ih (fun c h => hc c (by simp [h])) (fun c h => hm c (by simp [h])) h1
      (by simp only [List.length_append]; omega)
    refine ⟨b2, r2, ?_, by simpa [List.append_assoc] using h2⟩
    have hsc := hc c (by simp)
    have hms := hm c (by simp)
    unfold runCps
    rw [Prog.bind_ok (a := true) (s' := b1)]
    · exact e2
    · unfold trBody
      simp only []
      rw [Prog.ite_apply]
      have hcl : c < 0x110000 := by unfold IsScalar at hsc; omega
      by_cases hin : min ≤ c ∧ c ≤ max
      · rw [if_pos (by omega), sub32_ok (by unfold I32; omega), Prog.lift_ok_bind, add32_ok (by unfold I32; omega), Prog.lift_ok_bind]
        have : (rmin : Int) + ((c : Int) - min) = (trMap min max rmin c : Nat) := by
          unfold trMap; rw [if_pos hin]; omega
        rw [this, chr_eq _ hms, Prog.bind_ok e1]
        rfl
      · rw [if_neg (by omega)]
        have : c = trMap min max rmin c := by unfold trMap; rw [if_neg hin]
        have hcc : chr c = some (encode (trMap min max rmin c)) := by rw [← this]; exact chr_eq c hsc
        rw [hcc, Prog.bind_ok e1]
        rfl

/-- **C46** (`tr`): with ranges `a-b` (or `a`) and `c-d` (or `c`), every character in `a-b` is replaced by the character
that many places after `c`, every other character is kept.  Partial: the replacement characters have to exist (be scalar
values), and they are not confined to `c-d`, see `c46_tr_beyond_violated`. -/
theorem c46_tr_partial (limit : Nat) (hlim : limit ≤ 2147483646) (h4 : 4 ≤ limit) (cps : List Nat) (hc : ∀ c ∈ cps, IsScalar c)
    (p r : Bytes) (hp : p.length ≤ 2147483647) (hrl : r.length ≤ 2147483647) (min max rmin rmax : Nat)
    (hpr : RangeOf p min max) (hrr : RangeOf r rmin rmax) (hm : ∀ c ∈ cps, IsScalar (trMap min max rmin c))
    (hroom : 2 * (encodeAll (cps.map (trMap min max rmin))).length ≤ limit) :
    tr limit (some (encodeAll cps)) (some p) (some r) = .ok (encodeAll (cps.map (trMap min max rmin))) := by
  obtain ⟨b, k, e, rb⟩ := StrBuf.new_ok hlim none (-1) (by simp; omega)
  have h1 : min < 0x110000 := by have := hpr.1; unfold IsScalar at this; omega
  have h2 : rmin < 0x110000 := by have := hrr.1; unfold IsScalar at this; omega
  obtain ⟨b', rest', e', r'⟩ := tr_runCps hlim min max rmin rmax h1 h2 cps hc hm rb (by simpa using hroom)
  unfold tr
  simp only []
  rw [parseRange_ok hp hpr, Out.ok_bind, parseRange_ok hrl hrr, Out.ok_bind, e, Out.ok_bind, Prog.bind_apply,
    cpLoop_whole _ cps [] hc (by simp) (.inl rfl), Prog.bind_ok e']
  simp only [afterCps, if_true, Prog.pure_apply]
  rw [StrBuf.toString_ok hlim r']
  simp

/-- **C46** (a character whose replacement does not exist throws; so does an invalid string). -/
theorem c46_tr_throws (limit : Nat) (hlim : limit ≤ 2147483646) (h4 : 4 ≤ limit) (a : List Nat) (hc : ∀ c ∈ a, IsScalar c)
    (tail : Bytes) (p r : Bytes) (hp : p.length ≤ 2147483647) (hrl : r.length ≤ 2147483647) (min max rmin rmax : Nat)
    (hpr : RangeOf p min max) (hrr : RangeOf r rmin rmax) (hm : ∀ c ∈ a, IsScalar (trMap min max rmin c))
    (hroom : 2 * (encodeAll (a.map (trMap min max rmin))).length ≤ limit)
    (h : Stuck tail ∨ ∃ d t, IsScalar d ∧ ¬ IsScalar (trMap min max rmin d) ∧ tail = encode d ++ t) :
    ∃ m, tr limit (some (encodeAll a ++ tail)) (some p) (some r) = .die m := by
  obtain ⟨b, k, e, rb⟩ := StrBuf.new_ok hlim none (-1) (by simp; omega)
  have h1 : min < 0x110000 := by have := hpr.1; unfold IsScalar at this; omega
  have h2 : rmin < 0x110000 := by have := hrr.1; unfold IsScalar at this; omega
  obtain ⟨b', rest', e', r'⟩ := tr_runCps hlim min max rmin rmax h1 h2 a hc hm rb (by simpa using hroom)
  unfold tr
  simp only []
  rw [parseRange_ok hp hpr, Out.ok_bind, parseRange_ok hrl hrr, Out.ok_bind, e, Out.ok_bind, Prog.bind_apply]
  rcases h with hst | ⟨d, t, hd, hnd, rfl⟩
  · rw [cpLoop_whole _ a tail hc rfl (.inr hst), Prog.bind_ok e']
    simp only [afterCps, if_true, if_neg hst.1]
    exact ⟨_, rfl⟩
  · obtain ⟨cps, rest, hcs, ht, hr⟩ := exists_decode t
    have hs : encodeAll a ++ (encode d ++ t) = encodeAll (a ++ d :: cps) ++ rest := by
      rw [ht, encodeAll_append, encodeAll_cons]
      simp [List.append_assoc]
    have hin : min ≤ d ∧ d ≤ max := by
      by_cases h : min ≤ d ∧ d ≤ max
      · exact h
      · exfalso; unfold trMap at hnd; rw [if_neg h] at hnd; exact hnd hd
    have hdl : d < 0x110000 := by unfold IsScalar at hd; omega
    have hbody : trBody limit (min, max) (rmin, rmax) d b' = (.die Str.msgStringUndef, b') := by
      unfold trBody
      simp only []
      rw [Prog.ite_apply, if_pos (by omega), sub32_ok (by unfold I32; omega), Prog.lift_ok_bind, add32_ok (by unfold I32; omega),
        Prog.lift_ok_bind]
      have : (rmin : Int) + ((d : Int) - min) = (trMap min max rmin d : Nat) := by
        unfold trMap; rw [if_pos hin]; omega
      rw [this]
      have hch : chr (trMap min max rmin d : Nat) = none := by
        unfold chr
        rw [if_neg (fun h => hnd ((isScalar_iff _).mp h))]
      rw [hch]
      exact Prog.bind_die rfl
    rw [cpLoop_whole _ (a ++ d :: cps) rest ?_ hs hr]
    · rw [Prog.bind_die (m := Str.msgStringUndef) (s' := b')]
      · exact ⟨_, rfl⟩
      · rw [runCps_append _ a (d :: cps) e', runCps_die hbody]
    · intro c hcm
      rw [List.mem_append, List.mem_cons] at hcm
      rcases hcm with h | rfl | h
      · exact hc c h
      · exact hd
      · exact hcs c h

/-- **C46** (`tr` with a replacement range at least as long as the pattern range): every replacement lies in the replacement
range, at the position the replaced character has in the pattern range. -/
theorem c46_tr_in_range (min max rmin rmax cp : Nat) (hlen : max - min ≤ rmax - rmin) (hr : rmin ≤ rmax) :
    (min ≤ cp ∧ cp ≤ max → rmin ≤ trMap min max rmin cp ∧ trMap min max rmin cp ≤ rmax ∧ trMap min max rmin cp - rmin = cp - min) ∧
    (¬ (min ≤ cp ∧ cp ≤ max) → trMap min max rmin cp = cp) := by
  unfold trMap
  constructor
  · intro h
    rw [if_pos h]
    omega
  · intro h
    rw [if_neg h]

/-- **C46** (deviation): a shorter replacement range does not confine the replacements: `tr("b", "a-b", "x")` is "y". -/
theorem c46_tr_beyond_violated : tr 100 (some [98]) (some [97, 45, 98]) (some [120]) = .ok [121] ∧
    RangeOf [97, 45, 98] 97 98 ∧ RangeOf [120] 120 120 := by
  refine ⟨by decide +kernel, ?_, ?_⟩
  · exact ⟨by decide, by decide, by decide, .inr (by decide)⟩
  · exact ⟨by decide, by decide, by decide, .inl ⟨by decide, rfl⟩⟩

/-- **C46** (deviation): a pattern of four or more characters is accepted, although the documentation says it throws. -/
theorem c46_pattern_long_violated : tr 100 (some [97, 98]) (some [97, 45, 98, 99]) (some [120, 45, 121]) = .ok [120, 121] := by
  decide +kernel

/-- **C46** (patterns): the accepted ones are exactly `a`, `a-b` and `a-b...` with `a ≤ b`; all others throw. -/
theorem c46_pattern_throws (limit : Nat) (s p : Bytes) (r : Option Bytes) (hp : p.length ≤ 2147483647)
    (h : ∀ min max t, IsScalar min → IsScalar max → min ≤ max → p ≠ encode min ∧ (Valid t → p ≠ encode min ++ [45] ++ encode max ++ t)) :
    ∃ m, tr limit (some s) (some p) r = .die m := by
  unfold tr
  simp only []
  cases r with
  | none => exact ⟨_, rfl⟩
  | some r =>
    simp only []
    obtain ⟨cps, rest, hc, hs, hr⟩ := exists_decode p
    obtain ⟨m, e⟩ := (parseRange_key p hp cps rest hc hs hr).2 (by
      by_cases hrest : rest = []
      · right
        subst hrest
        rw [List.append_nil] at hs
        match cps, hc, hs with
        | [], _, _ => rfl
        | [a], hc, hs =>
          have := (h a a [] (hc a (by simp)) (hc a (by simp)) (by omega)).1
          exact absurd (by simpa [encodeAll] using hs) this
        | [a, d], _, _ => rfl
        | a :: d :: b :: more, hc, hs =>
          simp only [rangeSpec]
          split
          · rename_i hd
            obtain ⟨rfl, hab⟩ := hd
            have := (h a b (encodeAll more) (hc a (by simp)) (hc b (by simp)) hab).2
              ⟨more, fun c hm => hc c (by simp [hm]), rfl⟩
            have h45 : encode 45 = [45] := rfl
            exact absurd (by rw [hs]; simp [encodeAll, h45]) this
          · rfl
      · exact .inl hrest)
    rw [e]
    exact ⟨_, rfl⟩

/-- **C46** (undefined arguments throw). -/
theorem c46_throws (limit : Nat) (s p r : Option Bytes) (h : s = none ∨ p = none ∨ r = none) : ∃ m, tr limit s p r = .die m := by
  unfold tr
  cases s with
  | none => exact ⟨_, rfl⟩
  | some s =>
    cases p with
    | none => exact ⟨_, rfl⟩
    | some p =>
      cases r with
      | none => exact ⟨_, rfl⟩
      | some r => simp at h

/-- Non-vacuity of C46. -/
example : tr 100 (some [97, 98, 0xE3, 0x81, 0x82, 122]) (some [97, 45, 121]) (some [65, 45, 89]) =
    .ok [65, 66, 0xE3, 0x81, 0x82, 122] := by decide +kernel
example : RangeOf [97, 45, 121] 97 121 := ⟨by decide, by decide, by decide, .inr (by decide)⟩

end Utf8
end SPVM
