import Verif.Spec.Mulnum
import Verif.Props.TypeCache

/-!
# C93 — The name of a multi-numeric type says what it consists of

A class with the attribute `mulnum_t` is accepted exactly if it has 1 to 255 fields, all of one numeric type, its name ends with `_`, the number of the
fields and the letter of the type, and it has no instance methods and no class variables.  So the name of an accepted type determines how many
numbers of which type a value of it is.
-/

namespace SPVM.Mulnum

theorem tail_doc (t : Num) (n : Nat) : tailName t n = "_".toUTF8.toList ++ Spec.digits n ++ [(docLetter t).toNat.toUInt8] := by
  have h1 : "_".toUTF8.toList = [95] := by decide +kernel
  have h2 : (docLetter t).toNat.toUInt8 = letter t := by cases t <;> decide +kernel
  rw [h1, h2]
  rfl

/-- In a text of the same length only the whole text can be found. -/
theorem strstr_same : ∀ {n h : Bytes}, n.length = h.length → (strstr n h = true ↔ n = h) := by
  have short : ∀ (h n : Bytes), h.length < n.length → strstr n h = false := by
    intro h
    induction h with
    | nil =>
      intro n hl
      cases n with
      | nil => simp at hl
      | cons => rfl
    | cons c r ih =>
      intro n hl
      unfold strstr
      rw [ih n (by simp at hl; omega), Bool.or_false]
      rw [← Bool.not_eq_true, List.isPrefixOf_iff_prefix]
      intro hp
      have := hp.length_le
      omega
  intro n h hl
  cases h with
  | nil =>
    cases n with
    | nil => simp [strstr]
    | cons => simp at hl
  | cons c r =>
    unfold strstr
    rw [short r n (by simp at hl; omega), Bool.or_false, List.isPrefixOf_iff_prefix]
    constructor
    · intro hp; exact hp.eq_of_length hl
    · intro e; rw [e]; exact List.prefix_refl _

theorem buildClass_iff (c : Cls) :
    buildClass c = .accepted ↔ (∀ m ∈ c.methods, m = true) ∧ c.classVars = 0 ∧ 1 ≤ c.fields.length ∧ c.fields.length ≤ 255 := by
  unfold buildClass
  by_cases h1 : c.methods.any (fun m => !m) = true
  · rw [if_pos h1]
    refine ⟨fun h => by (cases h), fun h => ?_⟩
    obtain ⟨m, hm, hf⟩ := List.any_eq_true.1 h1
    rw [h.1 m hm] at hf
    cases hf
  · rw [if_neg h1]
    have hm : ∀ m ∈ c.methods, m = true := by
      intro m hm
      cases hb : m with
      | true => rfl
      | false => exact absurd (List.any_eq_true.2 ⟨m, hm, by rw [hb]; rfl⟩) h1
    by_cases h2 : c.classVars > 0
    · rw [if_pos h2]
      exact ⟨fun h => by (cases h), fun h => by omega⟩
    · rw [if_neg h2]
      by_cases h3 : c.fields.length = 0
      · rw [if_pos h3]
        exact ⟨fun h => by (cases h), fun h => by omega⟩
      · rw [if_neg h3]
        by_cases h4 : c.fields.length > 255
        · rw [if_pos h4]
          exact ⟨fun h => by (cases h), fun h => by omega⟩
        · rw [if_neg h4]
          exact ⟨fun _ => ⟨hm, by omega, by omega, by omega⟩, fun _ => rfl⟩

theorem numeric_iff (f : Ty) (t : Num) : f.numeric = some t ↔ f = ⟨.num t, 0⟩ := by
  obtain ⟨b, d⟩ := f
  cases b with
  | num n =>
    unfold Ty.numeric
    simp only
    split
    · rename_i h; subst h; simp
    · rename_i h; simp [h]
  | other => simp [Ty.numeric]

/-- The name test of the code is the documented one. -/
theorem name_test {name : Bytes} {t : Num} {n : Nat} (hl : (tailName t n).length ≤ name.length) :
    strstr (tailName t n) (name.drop (name.length - (tailName t n).length)) = true ↔ NameSays name n t := by
  rw [strstr_same (by rw [List.length_drop]; omega)]
  unfold NameSays
  rw [← tail_doc]
  constructor
  · intro h
    refine ⟨name.take (name.length - (tailName t n).length), ?_⟩
    conv => rhs; rhs; rw [h]
    exact (List.take_append_drop _ _).symm
  · rintro ⟨stem, rfl⟩
    rw [List.length_append, Nat.add_sub_cancel, List.drop_left]

theorem says_length {name : Bytes} {t : Num} {n : Nat} (h : NameSays name n t) : (tailName t n).length ≤ name.length := by
  obtain ⟨stem, rfl⟩ := h
  rw [← tail_doc, List.length_append]
  omega

/-- The fields pass the comparison with the first one exactly if all are the same. -/
theorem same_iff (f : Ty) (fs : List Ty) :
    (f :: fs).any (fun g => !(g.base == f.base && g.dim == f.dim)) = false ↔ f :: fs = List.replicate (fs.length + 1) f := by
  rw [List.eq_replicate_iff]
  simp only [List.length_cons, true_and]
  rw [List.any_eq_false]
  constructor
  · intro h g hg
    have := h g hg
    simp only [Bool.not_eq_true, Bool.not_eq_false', Bool.and_eq_true, beq_iff_eq] at this
    obtain ⟨gb, gd⟩ := g
    obtain ⟨fb, fd⟩ := f
    simp only at this
    rw [this.1, this.2]
  · intro h g hg
    rw [h g hg]
    simp

/-- **Accepted exactly if well formed.** -/
theorem accepted_iff (c : Cls) : check c = .ok .accepted ↔ ∃ n t, Good c n t := by
  have hb := buildClass_iff c
  unfold check
  constructor
  · intro h
    split at h
    · cases h
    · rename_i hacc
      obtain ⟨hm, hv, h1, h2⟩ := hb.1 hacc
      unfold checkFields at h
      split at h
      · cases h
      · rename_i f fs hf
        split at h
        · cases h
        · rename_i t ht
          split at h
          · cases h
          · rename_i hs
            rw [Bool.not_eq_true, hf, same_iff] at hs
            rw [numeric_iff] at ht
            simp only at h
            split at h
            · cases h
            · rename_i hl
              split at h
              · rename_i hn
                refine ⟨c.fields.length, t, ?_, h1, h2, (name_test (by omega)).1 hn, hm, hv⟩
                rw [hf, List.length_cons, ← ht]
                exact hs
              · cases h
  · rintro ⟨n, t, hf, h1, h2, hn, hm, hv⟩
    have hlen : c.fields.length = n := by rw [hf, List.length_replicate]
    rw [hb.2 ⟨hm, hv, by omega, by omega⟩]
    simp only
    unfold checkFields
    obtain ⟨k, rfl⟩ : ∃ k, n = k + 1 := ⟨n - 1, by omega⟩
    have hf' : c.fields = ⟨.num t, 0⟩ :: List.replicate k ⟨.num t, 0⟩ := by rw [hf]; rfl
    have hs : c.fields.any (fun g => !(g.base == Base.num t && g.dim == 0)) = false := by
      rw [hf']
      exact (same_iff ⟨.num t, 0⟩ (List.replicate k ⟨.num t, 0⟩)).2 (by rw [List.length_replicate]; rfl)
    have hl := says_length hn
    split
    · rename_i he; rw [he] at hlen; simp at hlen
    · rename_i f fs he
      have hff : f = ⟨.num t, 0⟩ := by
        rw [hf'] at he
        exact (List.cons.inj he).1.symm
      subst hff
      rw [show (Ty.mk (Base.num t) 0).numeric = some t from (numeric_iff _ _).2 rfl]
      simp only
      rw [hs, hlen]
      simp only [Bool.false_eq_true, if_false]
      rw [if_neg (by omega), (name_test hl).2 hn, if_pos rfl]

theorem digits_no_underscore (n : Nat) : (95 : UInt8) ∉ Spec.digits n := by
  induction n using Nat.strongRecOn with
  | ind n ih =>
    have hd : ∀ {d}, d < 10 → (95 : UInt8) ≠ Spec.digit d := by
      intro d h he
      have := congrArg UInt8.toNat he
      rw [TypeCache.digit_toNat h] at this
      simp at this
      omega
    unfold Spec.digits
    split
    · rename_i h; simpa using hd h
    · rename_i h
      simp only [List.mem_append, List.mem_singleton, not_or]
      exact ⟨ih (n / 10) (by omega), hd (Nat.mod_lt _ (by omega))⟩

/-- Two numbers with their letters at the end of one name are the same. -/
theorem says_inj {name : Bytes} {n n' : Nat} {t t' : Num} (h : NameSays name n t) (h' : NameSays name n' t') : n = n' ∧ t = t' := by
  obtain ⟨s, hs⟩ := h
  obtain ⟨s', hs'⟩ := h'
  rw [← tail_doc] at hs hs'
  rw [hs] at hs'
  have e := congrArg List.reverse hs'
  unfold tailName at e
  simp only [List.reverse_append, List.reverse_cons, List.reverse_nil, List.nil_append, List.append_assoc, List.cons_append, List.cons.injEq] at e
  obtain ⟨el, er⟩ := e
  have ht : t = t' := by
    revert el
    cases t <;> cases t' <;> decide
  have no : ∀ k, (95 : UInt8) ∉ (Spec.digits k).reverse := by
    intro k hk
    exact digits_no_underscore k (List.mem_reverse.1 hk)
  have split : ∀ (a b : List UInt8) (x y : List UInt8), (95 : UInt8) ∉ a → (95 : UInt8) ∉ b → a ++ 95 :: x = b ++ 95 :: y → a = b := by
    intro a
    induction a with
    | nil =>
      intro b x y _ hb h
      cases b with
      | nil => rfl
      | cons c b => exact absurd (by rw [(List.cons.inj h).1]; exact List.mem_cons_self) hb
    | cons c a ih =>
      intro b x y ha hb h
      cases b with
      | nil => exact absurd (by rw [← (List.cons.inj h).1]; exact List.mem_cons_self) ha
      | cons d b =>
        have := List.cons.inj h
        rw [this.1, ih b x y (fun m => ha (List.mem_cons_of_mem _ m)) (fun m => hb (List.mem_cons_of_mem _ m)) this.2]
  have := split _ _ _ _ (no n) (no n') er
  exact ⟨TypeCache.digits_inj (List.reverse_inj.1 this), ht⟩

/-- The name of an accepted type says how many fields of which type it has. -/
theorem name_determines_fields (c c' : Cls) (h : check c = .ok .accepted) (h' : check c' = .ok .accepted) (hn : c.name = c'.name) :
    c.fields = c'.fields := by
  obtain ⟨n, t, g⟩ := (accepted_iff c).1 h
  obtain ⟨n', t', g'⟩ := (accepted_iff c').1 h'
  obtain ⟨rfl, rfl⟩ := says_inj g.2.2.2.1 (by rw [hn]; exact g'.2.2.2.1)
  rw [g.1, g'.1]

/-- What is not well formed is rejected.  Partial: only if all fields have the type of the first and the name is not shorter than
its required end; otherwise the check itself is undefined (see the two theorems below). -/
theorem rejected_partial (c : Cls) (hbad : ¬ ∃ n t, Good c n t)
    (hsame : ∀ f ∈ c.fields, ∀ g ∈ c.fields, f = g) (hlen : ∀ t, (tailName t c.fields.length).length ≤ c.name.length) : check c = .ok .rejected := by
  cases hc : check c with
  | ok v =>
    cases v with
    | rejected => rfl
    | accepted => exact absurd ((accepted_iff c).1 hc) hbad
  | die m =>
    exfalso
    unfold check checkFields at hc
    repeat' (first | (split at hc) | (cases hc; done) | simp only at hc)
  | ub =>
    exfalso
    unfold check at hc
    split at hc
    · cases hc
    · rename_i hacc
      have h1 := ((buildClass_iff c).1 hacc).2.2.1
      unfold checkFields at hc
      split at hc
      · rename_i he; rw [he] at h1; simp at h1
      · rename_i f fs hf
        split at hc
        · cases hc
        · split at hc
          · rename_i hany
            obtain ⟨g, hg, hne⟩ := List.any_eq_true.1 hany
            rw [hsame g hg f (by rw [hf]; exact List.mem_cons_self)] at hne
            simp at hne
          · rename_i t _ _
            simp only at hc
            have := hlen t
            rw [if_neg (by omega)] at hc
            split at hc <;> cases hc

/-! ## Witnesses -/

def complex2d : Cls := ⟨"Complex_2d".toUTF8.toList, [⟨.num .double, 0⟩, ⟨.num .double, 0⟩], [true, true], 0⟩

/-- Non-vacuity: `Complex_2d` is accepted, under the name `Complex_2f` it is rejected, as `Complex_12d` too. -/
example : check complex2d = .ok .accepted ∧ check { complex2d with name := "Complex_2f".toUTF8.toList } = .ok .rejected ∧
    check { complex2d with name := "Complex_12d".toUTF8.toList } = .ok .rejected := by decide +kernel

/-- A name shorter than the required end: the code reads before the name. -/
theorem short_name_violated : check ⟨"A".toUTF8.toList, [⟨.num .byte, 0⟩], [], 0⟩ = .ub := by decide +kernel

/-- Fields of different types: the error message is made from arguments of the wrong types. -/
theorem mixed_fields_violated : check ⟨"A_2i".toUTF8.toList, [⟨.num .int, 0⟩, ⟨.num .byte, 0⟩], [], 0⟩ = .ub := by decide +kernel

end SPVM.Mulnum
