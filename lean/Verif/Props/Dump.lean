import Verif.Lemmas.DumpEnd
/-!
# C70 `dump` shows every object

The text of `dump` is that of the picture of the object: every object of a class that can be reached is shown in full once, at its first
place, later places refer to it by its address; arrays and strings are shown in full.  `dump` ends, except for arrays that contain
themselves.
-/
namespace SPVM
namespace Dump
open VM (Bytes)
open Spec.Dump (Tree Shown Depicts visits FirstInFull pretty target text)
open Spec.Utf8 (encode encodeAll IsScalar)

/-- `p` prints different addresses differently, objects have even addresses.  `dump` gives a text exactly if the object has a picture in
which every object of a class is shown in full at its first place and only there; the text is that of the picture. -/
theorem dump_iff (p : Nat → Bytes) (hp : ∀ a b, p a = p b → a = b) (H : Heap) (hev : ∀ a, (H a).isSome = true → a % 2 = 0)
    (a : Nat) (b : Bytes) :
    (∃ k, dump p H k a = .ok b) ↔ ∃ t, Depicts H a t ∧ FirstInFull t ∧ b = pretty p 0 t := by
  have h0 : SeenBy p { buf := [], seen := [] } [] := by intro x; simp
  constructor
  · rintro ⟨k, h⟩
    unfold dump at h
    cases hd : dumpRec p H k a 0 { buf := [], seen := [] } with
    | die m => rw [hd] at h; cases h
    | ub => rw [hd] at h; cases h
    | ok st =>
      rw [hd] at h
      cases h
      obtain ⟨t, h1, h2, h3, _⟩ := sound p hp H hev k a 0 [] _ st hd h0
      exact ⟨t, h1, (first_iff t).2 h2, by simpa using h3⟩
  · rintro ⟨t, h1, h2, rfl⟩
    obtain ⟨k, st, h3, h4, _⟩ := complete p hp H hev h1 0 [] { buf := [], seen := [] } ((first_iff t).1 h2) h0
    refine ⟨k, ?_⟩
    unfold dump
    rw [h3 k (Nat.le_refl _)]
    show Out.ok st.buf = _
    rw [h4]
    simp

/-- There is only one such text, and `dump` gives it whenever it is given enough time. -/
theorem dump_unique (p : Nat → Bytes) (hp : ∀ a b, p a = p b → a = b) (H : Heap) (hev : ∀ a, (H a).isSome = true → a % 2 = 0)
    (a : Nat) (t t' : Tree) (h : Depicts H a t) (hf : FirstInFull t) (h' : Depicts H a t') (hf' : FirstInFull t') :
    pretty p 0 t = pretty p 0 t' ∧ ∃ k, ∀ k', k ≤ k' → dump p H k' a = .ok (pretty p 0 t) := by
  have h0 : SeenBy p { buf := [], seen := [] } [] := by intro x; simp
  obtain ⟨k1, st1, h1, hb1, _⟩ := complete p hp H hev h 0 [] { buf := [], seen := [] } ((first_iff t).1 hf) h0
  obtain ⟨k2, st2, h2, hb2, _⟩ := complete p hp H hev h' 0 [] { buf := [], seen := [] } ((first_iff t').1 hf') h0
  have e1 := h1 (k1 + k2) (by omega)
  have e2 := h2 (k1 + k2) (by omega)
  rw [e1] at e2
  cases e2
  simp only [List.append_nil, List.nil_append] at hb1 hb2
  refine ⟨hb1.symm.trans hb2, k1, fun k' hk => ?_⟩
  unfold dump
  rw [h1 k' hk]
  show Out.ok st1.buf = _
  rw [hb1]

/-- Whatever the references between objects of classes are, circles included, `dump` comes to an end.  Missing: arrays that contain
themselves (`rank` excludes them), see below. -/
theorem dump_ends_partial (p : Nat → Bytes) (H : Heap) (hev : ∀ a, (H a).isSome = true → a % 2 = 0)
    (hclosed : ∀ a o, H a = some o → ∀ w ∈ refs o, target w = 0 ∨ (H (target w)).isSome = true)
    (objs : List Nat) (hfin : ∀ a cls fields, H a = some (.inst cls fields) → a ∈ objs)
    (rank : Nat → Nat)
    (hrank : ∀ a elem dim els elem' dim' els' w, H a = some (.objs elem dim els) → w ∈ els → H (target w) = some (.objs elem' dim' els') →
      rank (target w) < rank a)
    (a : Nat) (ha : a = 0 ∨ (H a).isSome = true) : ∃ k b, ∀ k', k ≤ k' → dump p H k' a = .ok b := by
  obtain ⟨k, st, h, _⟩ := ends p H hev (fun a o ho w hw => by rw [noWeaken_eq]; exact hclosed a o ho w hw) objs hfin rank
    (fun a elem dim els hH w hw hw' => by
      rw [noWeaken_eq] at hw' ⊢
      unfold isArr at hw'
      split at hw'
      · rename_i e' d' l' h'
        exact hrank a elem dim els e' d' l' w hH hw h'
      · cases hw')
    _ _ a 0 { buf := [], seen := [] } (Nat.le_refl _) (fun _ => Nat.lt_succ_self _) ha
  refine ⟨k, st.buf, fun k' hk => ?_⟩
  unfold dump
  rw [h k' hk]
  rfl

/-- Valid UTF-8 without control characters is shown as it is. -/
theorem dump_plain_string (p : Nat → Bytes) (H : Heap) (a : Nat) (ha : a ≠ 0) (cps : List Nat)
    (hc : ∀ c ∈ cps, IsScalar c ∧ (0x20 ≤ c ∧ c ≤ 0x7e ∨ 0x80 ≤ c)) (hH : H a = some (.str (encodeAll cps))) :
    dump p H 1 a = .ok (text "\"" ++ encodeAll cps ++ text "\"") := by
  have hs : ∀ cps : List Nat, (∀ c ∈ cps, IsScalar c ∧ (0x20 ≤ c ∧ c ≤ 0x7e ∨ 0x80 ≤ c)) → Shown (encodeAll cps) (encodeAll cps) := by
    intro cps
    induction cps with
    | nil => intro _; exact .nil
    | cons c cps ih =>
      intro h
      have h1 := h c (by simp)
      exact .char h1.1 h1.2 (ih (fun x hx => h x (List.mem_cons_of_mem _ hx)))
  have := strLoop_shown (hs cps hc) [] ((encodeAll cps).length + 1) ([] ++ [34]) (by omega)
  simp only [List.nil_append, List.length_nil] at this
  have ht : text "\"" = [34] := by decide +kernel
  simp only [dump, dumpRec, if_neg ha, hH, this, List.nil_append, Out.ok_bind, Out.pure_eq, ht]

/-! ## Violations -/

/-- `$array->[0] = $array` in general: arrays that contain one another in a circle, directly or among other elements, are shown without
end (the code has no table for arrays). -/
theorem dump_array_cycle_violated (p : Nat → Bytes) (H : Heap) (P : Nat → Prop)
    (hP : ∀ a, P a → a ≠ 0 ∧ ∃ elem dim els w, H a = some (.objs elem dim els) ∧ w ∈ els ∧ P (target w)) (a : Nat) (ha : P a) (k : Nat) :
    dump p H k a = .ub := by
  unfold dump
  rw [cycle_ub p H P (fun a h => by
    obtain ⟨h0, e, d, l, w, h1, h2, h3⟩ := hP a h
    exact ⟨h0, e, d, l, w, h1, h2, by rw [noWeaken_eq]; exact h3⟩) k a 0 _ ha]
  rfl

/-- The array of one element that is the array itself. -/
def exSelf : Heap := fun a => if a = 2 then some (.objs (text "object") 1 [2]) else none
example (p : Nat → Bytes) (k : Nat) : dump p exSelf k 2 = .ub :=
  dump_array_cycle_violated p exSelf (· = 2) (fun a h => ⟨by omega, text "object", 1, [2], 2, by rw [h]; rfl, by simp, rfl⟩) 2 rfl k

/-- The brace that closes an element of a multi-numeric array is always indented by two spaces, while the brace that opens it is indented
by its depth. -/
theorem dump_mulnum_indent_violated :
    dump (fun a => text (Nat.repr a)) (fun a => if a = 2 then some (.inst (text "Foo") [(text "z", .ref 4)])
      else if a = 4 then some (.muls (text "Complex_2d") [[(text "re", .int 1), (text "im", .int (-2))]]) else none) 3 2 =
    .ok (text "Foo (2) {\n  z => [\n    {\n      re => 1,\n      im => -2\n  }\n  ] : Complex_2d[](4)\n}") := by
  decide +kernel

/-! ## Examples -/

/-- A ring of two objects, one reference being weak, with a string, `undef`, and nested arrays that share an element. -/
def exRing : Heap := fun a =>
  if a = 2 then some (.inst (text "Node") [(text "id", .num (.int (-7))), (text "next", .ref 4), (text "name", .ref 6)])
  else if a = 4 then some (.inst (text "Node") [(text "id", .num (.int 12)), (text "next", .ref 3), (text "list", .ref 8)])
  else if a = 6 then some (.str [97, 10, 0xE3, 0x81, 0x82, 0xFF])
  else if a = 8 then some (.objs (text "object") 1 [10, 10, 5])
  else if a = 10 then some (.objs (text "string") 1 [0, 6])
  else none

example : dump (fun a => text (Nat.repr a)) exRing 6 2 = .ok (text ("Node (2) {\n  id => -7,\n  next => Node (4) {\n    id => 12,\n" ++
    "    next => REUSE_OBJECT(2),\n    list => [\n      [\n        undef,\n        \"a\\x{0A}あ\\x{FF}\"\n      ] : string[](10),\n" ++
    "      [\n        undef,\n        \"a\\x{0A}あ\\x{FF}\"\n      ] : string[](10),\n      REUSE_OBJECT(4)\n    ] : object[](8)\n  },\n" ++
    "  name => \"a\\x{0A}あ\\x{FF}\"\n}")) := by
  decide +kernel

theorem exRing_cases (a : Nat) (o : Obj) (h : exRing a = some o) : a = 2 ∨ a = 4 ∨ a = 6 ∨ a = 8 ∨ a = 10 := by
  unfold exRing at h
  repeat (split at h; · simp [*])
  cases h

/-- The hypotheses of `dump_ends_partial` and of the other theorems hold for it. -/
example (p : Nat → Bytes) : ∃ k b, ∀ k', k ≤ k' → dump p exRing k' 2 = .ok b := by
  refine dump_ends_partial p exRing ?_ ?_ [2, 4] ?_ (fun a => if a = 8 then 1 else 0) ?_ 2 (.inr rfl)
  · intro a h
    obtain ⟨o, ho⟩ := Option.isSome_iff_exists.1 h
    have := exRing_cases a o ho
    omega
  · intro a o h w hw
    rcases exRing_cases a o h with rfl | rfl | rfl | rfl | rfl <;> cases h <;> simp [refs] at hw
    · rcases hw with rfl | rfl <;> exact .inr rfl
    · rcases hw with rfl | rfl <;> exact .inr rfl
    · rcases hw with rfl | rfl <;> exact .inr rfl
    · rcases hw with rfl | rfl
      · exact .inl rfl
      · exact .inr rfl
  · intro a cls fields h
    rcases exRing_cases a _ h with rfl | rfl | rfl | rfl | rfl <;> cases h <;> simp
  · intro a elem dim els elem' dim' els' w h hw h'
    rcases exRing_cases a _ h with rfl | rfl | rfl | rfl | rfl <;> cases h <;> simp at hw
    · rcases hw with rfl | rfl
      · decide
      · cases h'
    · rcases hw with rfl | rfl <;> cases h'

example : ∃ (p : Nat → Bytes), ∀ a b, p a = p b → a = b :=
  ⟨fun n => List.replicate n 48, fun a b h => by simpa using congrArg List.length h⟩

end Dump
end SPVM
