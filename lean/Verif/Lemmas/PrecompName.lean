import Verif.Model.PrecompName
import Verif.Spec.PrecompName

namespace SPVM.Precomp

open Spec.PrecompName

/-! ## Searching -/

theorem strstr_iff (needle : Name) : ∀ hay, strstr hay needle = true ↔ needle <:+: hay
  | [] => by simp [strstr]
  | ch :: hay => by
    rw [strstr, Bool.or_eq_true, List.isPrefixOf_iff_prefix, strstr_iff needle hay, List.infix_cons_iff]

/-! ## Runs of underscores -/

/-- `k` underscores. -/
def und (k : Nat) : Name := List.replicate k '_'

theorem sep_eq : sep = und 4 := rfl

/-- Not ending with an underscore. -/
def NoEnd (a : Name) : Prop := a.getLast? ≠ some '_'

/-- Not beginning with an underscore. -/
def NoStart (a : Name) : Prop := a.head? ≠ some '_'

theorem und_append_cut {k : Nat} {t d r : Name} (h : und k ++ t = d ++ r) :
    (∃ d', d = und k ++ d') ∨ (∃ j, j < k ∧ d = und j) := by
  by_cases hd : k ≤ d.length
  · left
    have : (und k ++ t).take k = (d ++ r).take k := by rw [h]
    rw [List.take_append_of_le_length (by simp [und]), List.take_append_of_le_length hd] at this
    rw [List.take_of_length_le (by simp [und])] at this
    exact ⟨d.drop k, by rw [this, List.take_append_drop]⟩
  · right
    refine ⟨d.length, by omega, ?_⟩
    have : (und k ++ t).take d.length = (d ++ r).take d.length := by rw [h]
    rw [List.take_append_of_le_length (by simp [und]; omega), List.take_append_of_le_length (by omega), List.take_length] at this
    refine this.symm.trans ?_
    simp only [und, List.take_replicate]
    congr 1
    omega

theorem noEnd_und {a : Name} {j : Nat} (hj : 0 < j) (h : NoEnd (a ++ und j)) : False := by
  apply h
  obtain ⟨j, rfl⟩ : ∃ i, j = i + 1 := ⟨j - 1, by omega⟩
  simp [und, List.getLast?_append, List.getLast?_replicate]

/-- A word without `k` underscores in a row, not ending with an underscore, is found before the first `k` underscores. -/
theorem cut {k : Nat} {a a' t t' : Name} (h1 : ¬ und k <:+: a) (h1' : ¬ und k <:+: a') (h2 : NoEnd a) (h2' : NoEnd a')
    (h : a ++ (und k ++ t) = a' ++ (und k ++ t')) : a = a' ∧ t = t' := by
  rcases List.append_eq_append_iff.1 h with ⟨d, rfl, hd⟩ | ⟨d, rfl, hd⟩
  · rcases und_append_cut hd with ⟨d', rfl⟩ | ⟨j, hj, rfl⟩
    · exact absurd ⟨a, d', by simp⟩ h1'
    · by_cases hz : j = 0
      · subst hz
        simp only [und, List.replicate_zero, List.nil_append, List.append_nil] at hd ⊢
        exact ⟨trivial, List.append_cancel_left hd⟩
      · exact (noEnd_und (by omega) h2').elim
  · rcases und_append_cut hd with ⟨d', rfl⟩ | ⟨j, hj, rfl⟩
    · exact absurd ⟨a', d', by simp⟩ h1
    · by_cases hz : j = 0
      · subst hz
        simp only [und, List.replicate_zero, List.nil_append, List.append_nil] at hd ⊢
        exact ⟨trivial, (List.append_cancel_left hd).symm⟩
      · exact (noEnd_und (by omega) h2).elim

theorem noEnd_append {a b : Name} (hb : b ≠ []) (h : NoEnd b) : NoEnd (a ++ b) := by
  unfold NoEnd at *
  rw [List.getLast?_append]
  cases hl : b.getLast? with
  | none => exact absurd (List.getLast?_eq_none_iff.1 hl) hb
  | some x => rw [hl] at h; simpa using h

/-- `l` ends `x ++ und k ++ y` and is longer than `y`: impossible when `l` has no underscore at its ends and no `k` in a row. -/
theorem overlap {k : Nat} {l X x y : Name} (hl : l ≠ []) (h1 : ¬ und k <:+: l) (h2 : NoStart l)
    (h : X ++ l = x ++ (und k ++ y)) : ∃ z, y = z ++ l := by
  rw [← List.append_assoc] at h
  rcases List.append_eq_append_iff.1 h with ⟨u, hu, rfl⟩ | ⟨u, -, h⟩
  · -- `l = u ++ y`, `u` ends `x ++ und k`
    by_cases hz : u = []
    · exact ⟨[], by simp [hz]⟩
    exfalso
    rcases List.append_eq_append_iff.1 hu with ⟨v, -, hv⟩ | ⟨v, -, hv⟩
    · -- und k = v ++ u
      have : u = und u.length := by
        have : (und k).drop v.length = u := by rw [hv, List.drop_left]
        rw [← this]; simp [und]
      cases u with
      | nil => exact hz rfl
      | cons c u =>
        apply h2
        rw [this]
        simp [und, List.replicate_succ]
    · -- u = v ++ und k
      subst hv
      exact h1 ⟨v, y, by simp⟩
  · exact ⟨u, h⟩

/-- Where `l`, `k` underscores and `t` can be found in `l'`, `k` underscores and `t'`. -/
theorem find {k : Nat} {X l t l' t' : Name} (hl : l ≠ []) (h1 : ¬ und k <:+: l) (h2 : NoStart l) (h3 : NoEnd l)
    (h1' : ¬ und k <:+: l') (h3' : NoEnd l') (h : X ++ (l ++ (und k ++ t)) = l' ++ (und k ++ t')) :
    (X ++ l = l' ∧ t = t') ∨ ∃ X', t' = X' ++ (l ++ (und k ++ t)) := by
  rw [← List.append_assoc] at h
  rcases List.append_eq_append_iff.1 h with ⟨d, rfl, hd⟩ | ⟨d, hd', hd⟩
  · left
    rcases und_append_cut hd with ⟨d', rfl⟩ | ⟨j, hj, rfl⟩
    · exact absurd ⟨X ++ l, d', by simp⟩ h1'
    · by_cases hz : j = 0
      · subst hz
        simp only [und, List.replicate_zero, List.nil_append, List.append_nil] at hd ⊢
        exact ⟨trivial, List.append_cancel_left hd⟩
      · exact (noEnd_und (by omega) h3').elim
  · rcases und_append_cut hd with ⟨d', rfl⟩ | ⟨j, hj, rfl⟩
    · right
      obtain ⟨z, rfl⟩ := overlap hl h1 h2 hd'
      refine ⟨z, ?_⟩
      rw [List.append_assoc] at hd
      have := List.append_cancel_left hd
      rw [this]; simp
    · by_cases hz : j = 0
      · subst hz
        simp only [und, List.replicate_zero, List.nil_append, List.append_nil] at hd hd' ⊢
        exact Or.inl ⟨hd', (List.append_cancel_left hd).symm⟩
      · have := noEnd_append (a := X) hl h3
        rw [hd'] at this
        exact (noEnd_und (by omega) this).elim

/-! ## The parts of an identifier -/

/-- A part of an identifier which the cuts can find: no `k` underscores in a row and none at its end. -/
structure Part (k : Nat) (l : Name) : Prop where
  noRun : ¬ und k <:+: l
  fin : NoEnd l

theorem not_infix_of_und {j k : Nat} {l : Name} (h : j ≤ k) (h1 : ¬ und j <:+: l) : ¬ und k <:+: l := by
  intro hc
  apply h1
  refine List.IsInfix.trans ⟨[], und (k - j), ?_⟩ hc
  simp only [und, List.nil_append, List.replicate_append_replicate]
  congr 1
  omega

theorem Part.mono {j k : Nat} {l : Name} (h : j ≤ k) (t : Part j l) : Part k l :=
  { t with noRun := not_infix_of_und h t.noRun }

theorem part_of_word {w : Name} (h : TidyWord w) : Part 2 w := ⟨h.1.noDouble, h.2⟩

theorem part_nil {k : Nat} (hk : 0 < k) : Part k [] :=
  ⟨by obtain ⟨k, rfl⟩ : ∃ i, k = i + 1 := ⟨k - 1, by omega⟩
      simp [und, List.replicate_succ], by simp [NoEnd]⟩

theorem mangle_word {w : Name} (h : ∀ ch ∈ w, ch.isAlphanum = true ∨ ch = '_') : mangle w = w := by
  unfold mangle
  rw [List.map_congr_left (g := id), List.map_id]
  intro ch hch
  split
  · rename_i hc
    subst hc
    rcases h _ hch with h | h
    · exact absurd h (by decide)
    · exact absurd h (by decide)
  · rfl

/-- Parts joined by two underscores. -/
def joinUnd : List Name → Name
  | [] => []
  | [w] => w
  | w :: ws => w ++ (und 2 ++ joinUnd ws)

theorem mangle_append (a b : Name) : mangle (a ++ b) = mangle a ++ mangle b := by simp [mangle]

theorem mangle_join : ∀ {ps : List Name}, (∀ p ∈ ps, Word p) → mangle (joinColons ps) = joinUnd ps
  | [], _ => rfl
  | [w], h => mangle_word (h w (by simp)).chars
  | w :: w' :: ws, h => by
    rw [joinColons, joinUnd, mangle_append, mangle_word (h w (by simp)).chars]
    · congr 1
      show mangle ([':', ':'] ++ joinColons (w' :: ws)) = _
      rw [mangle_append, mangle_join (fun p hp => h p (List.mem_cons_of_mem _ hp))]
      rfl
    · simp
    · simp

theorem joinUnd_tail {w w' : Name} {ws : List Name} : joinUnd (w :: w' :: ws) = w ++ (und 2 ++ joinUnd (w' :: ws)) := rfl

theorem joinUnd_ne {w : Name} {ws : List Name} (h : w ≠ []) : joinUnd (w :: ws) ≠ [] := by
  cases ws with
  | nil => exact h
  | cons w' ws => rw [joinUnd_tail]; simp [h]

theorem joinUnd_end : ∀ {ps : List Name}, ps ≠ [] → (∀ p ∈ ps, TidyWord p) → NoEnd (joinUnd ps)
  | [], h, _ => absurd rfl h
  | [w], _, h => (h w (by simp)).2
  | w :: w' :: ws, _, h => by
    rw [joinUnd_tail, ← List.append_assoc]
    exact noEnd_append (joinUnd_ne (h w' (by simp)).1.ne) (joinUnd_end (by simp) fun p hp => h p (List.mem_cons_of_mem _ hp))

/-- Two joined lists of parts are the same only when the parts are. -/
theorem joinUnd_inj : ∀ {ps qs : List Name}, ps ≠ [] → qs ≠ [] → (∀ p ∈ ps, Part 2 p) → (∀ p ∈ qs, Part 2 p) →
    joinUnd ps = joinUnd qs → ps = qs
  | [], _, h, _, _, _, _ => absurd rfl h
  | _, [], _, h, _, _, _ => absurd rfl h
  | [w], [v], _, _, _, _, h => by simpa [joinUnd] using h
  | [w], v :: v' :: vs, _, _, h1, _, h => by
    exfalso
    apply (h1 w (by simp)).noRun
    rw [joinUnd_tail] at h
    have h : w = v ++ (und 2 ++ joinUnd (v' :: vs)) := h
    rw [h]
    exact ⟨v, joinUnd (v' :: vs), by simp⟩
  | w :: w' :: ws, [v], _, _, _, h2, h => by
    exfalso
    apply (h2 v (by simp)).noRun
    rw [joinUnd_tail] at h
    have h : w ++ (und 2 ++ joinUnd (w' :: ws)) = v := h
    rw [← h]
    exact ⟨w, joinUnd (w' :: ws), by simp⟩
  | w :: w' :: ws, v :: v' :: vs, _, _, h1, h2, h => by
    rw [joinUnd_tail, joinUnd_tail] at h
    obtain ⟨rfl, h'⟩ := cut (h1 w (by simp)).noRun (h2 v (by simp)).noRun (h1 w (by simp)).fin (h2 v (by simp)).fin h
    rw [joinUnd_inj (by simp) (by simp) (fun p hp => h1 p (List.mem_cons_of_mem _ hp))
      (fun p hp => h2 p (List.mem_cons_of_mem _ hp)) h']

/-- A run of underscores across two texts is inside one of them, when the first does not end with an underscore. -/
theorem und_infix_append {k : Nat} {a b : Name} (h : NoEnd a) (hc : und k <:+: a ++ b) : und k <:+: a ∨ und k <:+: b := by
  rcases List.infix_append_iff.1 hc with h1 | h1 | ⟨u, v, huv, h1, h2⟩
  · exact Or.inl h1
  · exact Or.inr h1
  · by_cases hu : u = []
    · subst hu
      right
      rw [huv]
      exact h2.isInfix
    · exfalso
      have : u = und u.length := by
        have h3 : (und k).take u.length = u := by rw [huv]; simp
        have h4 : u.length ≤ k := by
          have := congrArg List.length huv
          simp [und] at this; omega
        refine h3.symm.trans ?_
        simp only [und, List.take_replicate]
        congr 1; omega
      obtain ⟨z, rfl⟩ := h1
      rw [this] at h
      exact noEnd_und (List.length_pos_iff.2 hu) h

theorem und4_infix_und2 {J : Name} (h : und 4 <:+: und 2 ++ J) : und 4 <:+: J ∨ und 2 <+: J := by
  rcases List.infix_append_iff.1 h with h1 | h1 | ⟨u, v, huv, h1, h2⟩
  · have := h1.length_le
    simp [und] at this
  · exact Or.inl h1
  · right
    have hu : u.length ≤ 2 := by have := h1.length_le; simpa [und] using this
    have hv : v = (und 4).drop u.length := by rw [huv]; simp
    refine List.IsPrefix.trans ?_ h2
    rw [hv]
    refine ⟨und (2 - u.length), ?_⟩
    simp only [und, List.drop_replicate, List.replicate_append_replicate]
    congr 1; omega

theorem joinUnd_run : ∀ {ps : List Name}, ps ≠ [] → (∀ p ∈ ps, TidyWord p) → ¬ und 4 <:+: joinUnd ps ∧ ¬ und 2 <+: joinUnd ps
  | [], h, _ => absurd rfl h
  | [w], _, h => ⟨((part_of_word (h w (by simp))).mono (by omega)).noRun, fun hc => (part_of_word (h w (by simp))).noRun hc.isInfix⟩
  | w :: w' :: ws, _, h => by
    have hw := h w (by simp)
    obtain ⟨i1, i2⟩ := joinUnd_run (ps := w' :: ws) (by simp) fun p hp => h p (List.mem_cons_of_mem _ hp)
    rw [joinUnd_tail]
    constructor
    · intro hc
      rcases und_infix_append hw.2 hc with h1 | h1
      · exact ((part_of_word hw).mono (k := 4) (by omega)).noRun h1
      · rcases und4_infix_und2 h1 with h2 | h2
        · exact i1 h2
        · exact i2 h2
    · intro hc
      match w, hw with
      | [], hw => exact hw.1.ne rfl
      | [a], hw =>
        obtain ⟨z, hz⟩ := hc
        simp [und, List.replicate_succ] at hz
        apply hw.2
        simp [← hz.1]
      | a :: b :: w, hw =>
        obtain ⟨z, hz⟩ := hc
        simp [und, List.replicate_succ] at hz
        apply (part_of_word hw).noRun
        refine ⟨[], w, ?_⟩
        simp only [und, List.replicate_succ, List.replicate_zero, List.nil_append, List.cons_append]
        rw [← hz.1, ← hz.2.1]

/-! ## Class names -/

theorem label_tight : (lBasicType ≠ []) ∧ ¬ und 2 <:+: lBasicType ∧ NoStart lBasicType ∧ NoEnd lBasicType := by
  refine ⟨by decide, ?_, by unfold NoStart; decide, by unfold NoEnd; decide⟩
  rw [← strstr_iff]; decide

theorem joinUnd_suffix : ∀ {ps : List Name}, lBasicType <:+ joinUnd ps → lBasicType <:+ joinColons ps
  | [], h => h
  | [_], h => h
  | w :: w' :: ws, h => by
    rw [joinUnd_tail] at h
    obtain ⟨X, hX⟩ := h
    obtain ⟨z, hz⟩ := overlap label_tight.1 label_tight.2.1 label_tight.2.2.1 hX
    have := joinUnd_suffix (ps := w' :: ws) ⟨z, hz.symm⟩
    obtain ⟨y, hy⟩ := this
    refine ⟨w ++ ':' :: ':' :: y, ?_⟩
    show _ = w ++ ':' :: ':' :: joinColons (w' :: ws)
    rw [← hy]; simp

theorem class_part {c : Name} (h : TidyClass c) : Part 4 (mangle c) ∧ ¬ lBasicType <:+ mangle c := by
  obtain ⟨ps, h1, h2, rfl, h3⟩ := h
  rw [mangle_join fun p hp => (h2 p hp).1]
  exact ⟨⟨(joinUnd_run h1 h2).1, joinUnd_end h1 h2⟩, fun hc => h3 (joinUnd_suffix hc)⟩

theorem class_inj {c c' : Name} (h : TidyClass c) (h' : TidyClass c') (he : mangle c = mangle c') : c = c' := by
  obtain ⟨ps, h1, h2, rfl, h3⟩ := h
  obtain ⟨qs, h1', h2', rfl, h3'⟩ := h'
  rw [mangle_join fun p hp => (h2 p hp).1, mangle_join fun p hp => (h2' p hp).1] at he
  rw [joinUnd_inj h1 h1' (fun p hp => part_of_word (h2 p hp)) (fun p hp => part_of_word (h2' p hp)) he]

theorem member_mangle {m : Name} (h : TidyMember m) : mangle m = m := by
  rcases h with rfl | h
  · rfl
  · exact mangle_word h.1.chars

theorem member_part {m : Name} (h : TidyMember m) : Part 2 m := by
  rcases h with rfl | h
  · exact part_nil (by omega)
  · exact part_of_word h

theorem var_mangle {v : Name} (h : TidyVar v) : mangle v = v := by
  obtain ⟨w, rfl, h⟩ := h
  show _ :: mangle w = _
  rw [mangle_word h.1.chars]
  rfl

theorem var_part {v : Name} (h : TidyVar v) : Part 2 v := by
  obtain ⟨w, rfl, h⟩ := h
  constructor
  · intro hc
    rcases und_infix_append (a := ['$']) (b := w) (by unfold NoEnd; decide) hc with h1 | h1
    · have := h1.length_le
      simp [und] at this
    · exact (part_of_word h).noRun h1
  · have := noEnd_append (a := ['$']) h.1.ne h.2
    simpa using this

/-! ## Entities -/

/-- The label of an entity. -/
def lab : Ent → Name
  | .basicType _ => lBasicType
  | .classVar _ _ => lClassVar
  | .fieldOffset _ _ => lFieldOffset
  | .method _ _ => lMethod

/-- The parts after the label. -/
def parts : Ent → List Name
  | .basicType c => [mangle c]
  | .classVar c v => [mangle c, mangle v]
  | .fieldOffset c f => [mangle c, mangle f]
  | .method c m => [mangle c, mangle m]

/-- Parts each followed by the separator. -/
def body : List Name → Name
  | [] => []
  | p :: ps => p ++ (und 4 ++ body ps)

theorem ident_eq (e : Ent) : ident e = lab e ++ (und 4 ++ body (parts e)) := by
  cases e <;> rfl

theorem lab_tight (e : Ent) : lab e ≠ [] ∧ ¬ und 4 <:+: lab e ∧ NoStart (lab e) ∧ NoEnd (lab e) := by
  have hd : ∀ l : Name, (l.isEmpty || strstr l (und 4) || l.head? == some '_' || l.getLast? == some '_') = false →
      l ≠ [] ∧ ¬ und 4 <:+: l ∧ NoStart l ∧ NoEnd l := by
    intro l h
    simp only [Bool.or_eq_false_iff] at h
    obtain ⟨⟨⟨h1, h2⟩, h3⟩, h4⟩ := h
    refine ⟨?_, ?_, ?_, ?_⟩
    · rintro rfl; exact absurd h1 (by decide)
    · rw [← strstr_iff, h2]; decide
    · simpa [NoStart] using h3
    · simpa [NoEnd] using h4
  cases e
  · exact hd lBasicType (by decide)
  · exact hd lClassVar (by decide)
  · exact hd lFieldOffset (by decide)
  · exact hd lMethod (by decide)

theorem parts_part {e : Ent} (h : TidyEnt e) : ∀ p ∈ parts e, Part 4 p := by
  intro p hp
  cases e with
  | basicType c =>
    simp only [parts, List.mem_singleton] at hp
    subst hp
    exact (class_part h).1
  | classVar c v =>
    simp only [parts, List.mem_cons, List.not_mem_nil, or_false] at hp
    rcases hp with rfl | rfl
    · exact (class_part h.1).1
    · rw [var_mangle h.2]; exact (var_part h.2).mono (by omega)
  | fieldOffset c f =>
    simp only [parts, List.mem_cons, List.not_mem_nil, or_false] at hp
    rcases hp with rfl | rfl
    · exact (class_part h.1).1
    · rw [member_mangle h.2]; exact (member_part h.2).mono (by omega)
  | method c m =>
    simp only [parts, List.mem_cons, List.not_mem_nil, or_false] at hp
    rcases hp with rfl | rfl
    · exact (class_part h.1).1
    · rw [member_mangle h.2]; exact (member_part h.2).mono (by omega)

theorem body_prefix : ∀ {ps qs : List Name} {Y : Name}, (∀ p ∈ ps, Part 4 p) → (∀ p ∈ qs, Part 4 p) → body ps ++ Y = body qs →
    ps <+: qs
  | [], _, _, _, _, _ => List.nil_prefix
  | p :: ps, [], Y, _, _, h => by simp [body, und, List.replicate_succ] at h
  | p :: ps, q :: qs, Y, h1, h2, h => by
    simp only [body, List.append_assoc] at h
    obtain ⟨rfl, h'⟩ := cut (h1 p (by simp)).noRun (h2 q (by simp)).noRun (h1 p (by simp)).fin (h2 q (by simp)).fin h
    obtain ⟨r, hr⟩ := body_prefix (fun p hp => h1 p (List.mem_cons_of_mem _ hp)) (fun p hp => h2 p (List.mem_cons_of_mem _ hp)) h'
    exact ⟨r, by rw [← hr]; rfl⟩

theorem body_find {l : Name} (hl : l ≠ []) (n1 : ¬ und 4 <:+: l) (n2 : NoStart l) (n3 : NoEnd l) {ps : List Name}
    (hp : ∀ p ∈ ps, Part 4 p) : ∀ {qs : List Name} {X Y : Name}, (∀ p ∈ qs, Part 4 p) →
    X ++ (l ++ (und 4 ++ (body ps ++ Y))) = body qs → ∃ q1 q q2, qs = q1 ++ q :: q2 ∧ l <:+ q ∧ ps <+: q2
  | [], X, Y, _, h => by simp [body, hl] at h
  | q :: qs, X, Y, h2, h => by
    rw [body] at h
    rcases find hl n1 n2 n3 (h2 q (by simp)).noRun (h2 q (by simp)).fin h with ⟨h3, h4⟩ | ⟨X', h3⟩
    · exact ⟨[], q, qs, rfl, ⟨X, h3⟩, body_prefix hp (fun p hp => h2 p (List.mem_cons_of_mem _ hp)) h4⟩
    · obtain ⟨q1, r, q2, rfl, h5, h6⟩ := body_find hl n1 n2 n3 hp (fun p hp => h2 p (List.mem_cons_of_mem _ hp)) h3.symm
      exact ⟨q :: q1, r, q2, rfl, h5, h6⟩

theorem lab_suffix {e e' : Ent} (h : lab e <:+ lab e') : lab e = lab e' := by
  rw [← List.isSuffixOf_iff_suffix] at h
  revert h
  cases e <;> cases e' <;> first | (intro; rfl) | (intro h; exact absurd h (by show ¬ _; simp only [lab]; decide))

theorem ent_of_parts {e e' : Ent} (h : TidyEnt e) (h' : TidyEnt e') (hl : lab e = lab e') (hp : parts e = parts e') : e = e' := by
  cases e <;> cases e' <;> first
    | exact absurd hl (by simp only [lab]; decide)
    | skip
  · simp only [parts, List.cons.injEq, and_true] at hp
    rw [class_inj h h' hp]
  · simp only [parts, List.cons.injEq, and_true] at hp
    rw [var_mangle h.2, var_mangle h'.2] at hp
    rw [class_inj h.1 h'.1 hp.1, hp.2]
  · simp only [parts, List.cons.injEq, and_true] at hp
    rw [member_mangle h.2, member_mangle h'.2] at hp
    rw [class_inj h.1 h'.1 hp.1, hp.2]
  · simp only [parts, List.cons.injEq, and_true] at hp
    rw [member_mangle h.2, member_mangle h'.2] at hp
    rw [class_inj h.1 h'.1 hp.1, hp.2]

theorem parts_length {e e' : Ent} (h : lab e = lab e') : (parts e).length = (parts e').length := by
  cases e <;> cases e' <;> first | rfl | exact absurd h (by simp only [lab]; decide)

/-- The identifier of a tidy entity occurs in that of another only when they are the same entity. -/
theorem ident_infix {e e' : Ent} (h : TidyEnt e) (h' : TidyEnt e') (hi : ident e <:+: ident e') : e = e' := by
  obtain ⟨X, Y, hXY⟩ := hi
  rw [ident_eq, ident_eq] at hXY
  simp only [List.append_assoc] at hXY
  obtain ⟨t1, t2, t3, t4⟩ := lab_tight e
  rcases find t1 t2 t3 t4 (lab_tight e').2.1 (lab_tight e').2.2.2 hXY with ⟨h3, h4⟩ | ⟨X', h3⟩
  · have hl := lab_suffix ⟨X, h3⟩
    have hp := body_prefix (parts_part h) (parts_part h') h4
    exact ent_of_parts h h' hl (hp.eq_of_length (parts_length hl))
  · exfalso
    obtain ⟨q1, q, q2, h5, h6, h7⟩ := body_find t1 t2 t3 t4 (parts_part h) (parts_part h') h3.symm
    have hlen := h7.length_le
    have hlen' := congrArg List.length h5
    have hle : (parts e').length ≤ 2 := by cases e' <;> simp [parts]
    simp only [List.length_append, List.length_cons] at hlen'
    cases e with
    | basicType c =>
      have hq : q1 = [] := by
        have : (parts (.basicType c)).length = 1 := rfl
        apply List.length_eq_zero_iff.1; omega
      subst hq
      have : ¬ lBasicType <:+ q := by
        cases e' with
        | basicType c' => simp only [parts, List.nil_append, List.cons.injEq] at h5; rw [← h5.1]; exact (class_part h').2
        | classVar c' v' => simp only [parts, List.nil_append, List.cons.injEq] at h5; rw [← h5.1]; exact (class_part h'.1).2
        | fieldOffset c' v' => simp only [parts, List.nil_append, List.cons.injEq] at h5; rw [← h5.1]; exact (class_part h'.1).2
        | method c' v' => simp only [parts, List.nil_append, List.cons.injEq] at h5; rw [← h5.1]; exact (class_part h'.1).2
      exact this h6
    | classVar c v =>
      have : (parts (.classVar c v)).length = 2 := rfl
      omega
    | fieldOffset c v =>
      have : (parts (.fieldOffset c v)).length = 2 := rfl
      omega
    | method c v =>
      have : (parts (.method c v)).length = 2 := rfl
      omega

/-! ## The text of the lookups -/

theorem infix_cons_split {n a b : Name} {ch : Char} (h : ch ∉ n) (hc : n <:+: a ++ ch :: b) : n <:+: a ∨ n <:+: b := by
  rcases List.infix_append_iff.1 hc with h1 | h1 | ⟨u, v, huv, h1, h2⟩
  · exact Or.inl h1
  · rcases List.infix_cons_iff.1 h1 with h1 | h1
    · obtain ⟨z, hz⟩ := h1
      cases n with
      | nil => exact Or.inl List.nil_infix
      | cons x n =>
        rw [List.cons_append, List.cons.injEq] at hz
        exact absurd (by rw [hz.1]; exact List.mem_cons_self) h
    · exact Or.inr h1
  · cases v with
    | nil => rw [huv, List.append_nil]; exact Or.inl h1.isInfix
    | cons x v =>
      obtain ⟨z, hz⟩ := h2
      rw [List.cons_append, List.cons.injEq] at hz
      exact absurd (by rw [huv, hz.1]; simp) h

/-- The characters of an identifier. -/
def IdChar (ch : Char) : Prop := ch.isAlphanum = true ∨ ch = '_' ∨ ch = '$'

theorem mangle_chars {c : Name} (h : ∀ ch ∈ c, IdChar ch ∨ ch = ':') : ∀ ch ∈ mangle c, IdChar ch := by
  intro ch hch
  obtain ⟨x, hx, rfl⟩ := List.mem_map.1 hch
  by_cases hc : x = ':'
  · rw [if_pos hc]; exact Or.inr (Or.inl rfl)
  · rw [if_neg hc]; exact (h x hx).resolve_right hc

theorem word_chars {w : Name} (h : Word w) : ∀ ch ∈ w, IdChar ch := by
  intro ch hch
  rcases h.chars ch hch with h | h
  · exact Or.inl h
  · exact Or.inr (Or.inl h)

theorem join_chars : ∀ {ps : List Name}, (∀ p ∈ ps, Word p) → ∀ ch ∈ joinColons ps, IdChar ch ∨ ch = ':'
  | [], _, ch, h => by simp [joinColons] at h
  | [w], h, ch, hc => Or.inl (word_chars (h w (by simp)) ch hc)
  | w :: w' :: ws, h, ch, hc => by
    rw [show joinColons (w :: w' :: ws) = w ++ ':' :: ':' :: joinColons (w' :: ws) from rfl, List.mem_append, List.mem_cons,
      List.mem_cons] at hc
    rcases hc with hc | hc | hc | hc
    · exact Or.inl (word_chars (h w (by simp)) ch hc)
    · exact Or.inr hc
    · exact Or.inr hc
    · exact join_chars (fun p hp => h p (List.mem_cons_of_mem _ hp)) ch hc

theorem class_chars {c : Name} (h : TidyClass c) : ∀ ch ∈ mangle c, IdChar ch := by
  obtain ⟨ps, _, h2, rfl, _⟩ := h
  exact mangle_chars (join_chars fun p hp => (h2 p hp).1)

theorem member_chars {m : Name} (h : TidyMember m) : ∀ ch ∈ mangle m, IdChar ch := by
  rw [member_mangle h]
  rcases h with rfl | h
  · intro ch hch; simp at hch
  · exact word_chars h.1

theorem var_chars {v : Name} (h : TidyVar v) : ∀ ch ∈ mangle v, IdChar ch := by
  rw [var_mangle h]
  obtain ⟨w, rfl, h⟩ := h
  intro ch hch
  rcases List.mem_cons.1 hch with hch | hch
  · exact Or.inr (Or.inr hch)
  · exact word_chars h.1 ch hch

theorem ident_chars {e : Ent} (h : TidyEnt e) : ∀ ch ∈ ident e, IdChar ch := by
  have hb : ∀ {ps : List Name}, (∀ p ∈ ps, ∀ ch ∈ p, IdChar ch) → ∀ ch ∈ body ps, IdChar ch := by
    intro ps
    induction ps with
    | nil => intro _ ch hch; simp [body] at hch
    | cons p ps ih =>
      intro hp ch hch
      rw [body, List.mem_append, List.mem_append] at hch
      rcases hch with hch | hch | hch
      · exact hp p (by simp) ch hch
      · exact Or.inr (Or.inl (List.eq_of_mem_replicate hch))
      · exact ih (fun p h => hp p (List.mem_cons_of_mem _ h)) ch hch
  have hlab : ∀ l : Name, (l.all fun ch => ch.isAlphanum || ch == '_') = true → ∀ ch ∈ l, IdChar ch := by
    intro l hl ch hch
    have := List.all_eq_true.1 hl ch hch
    simp only [Bool.or_eq_true, beq_iff_eq] at this
    rcases this with h | h
    · exact Or.inl h
    · exact Or.inr (Or.inl h)
  intro ch hch
  rw [ident_eq, List.mem_append, List.mem_append] at hch
  rcases hch with hch | hch | hch
  · cases e
    · exact hlab lBasicType (by decide) ch hch
    · exact hlab lClassVar (by decide) ch hch
    · exact hlab lFieldOffset (by decide) ch hch
    · exact hlab lMethod (by decide) ch hch
  · exact Or.inr (Or.inl (List.eq_of_mem_replicate hch))
  · refine hb ?_ ch hch
    intro p hp
    cases e with
    | basicType c =>
      simp only [parts, List.mem_singleton] at hp
      subst hp; exact class_chars h
    | classVar c v =>
      simp only [parts, List.mem_cons, List.not_mem_nil, or_false] at hp
      rcases hp with rfl | rfl
      · exact class_chars h.1
      · exact var_chars h.2
    | fieldOffset c v =>
      simp only [parts, List.mem_cons, List.not_mem_nil, or_false] at hp
      rcases hp with rfl | rfl
      · exact class_chars h.1
      · exact member_chars h.2
    | method c v =>
      simp only [parts, List.mem_cons, List.not_mem_nil, or_false] at hp
      rcases hp with rfl | rfl
      · exact class_chars h.1
      · exact member_chars h.2

/-- A text an identifier is searched in: characters of identifiers and four underscores in a row. -/
structure Needle (n : Name) : Prop where
  chars : ∀ ch ∈ n, IdChar ch
  run : und 4 <:+: n

theorem needle_ident {e : Ent} (h : TidyEnt e) : Needle (ident e) :=
  ⟨ident_chars h, by rw [ident_eq]; exact ⟨lab e, body (parts e), by simp⟩⟩

theorem Needle.not_mem {n : Name} (h : Needle n) {ch : Char} (hc : (ch.isAlphanum || ch == '_' || ch == '$') = false) : ch ∉ n := by
  intro hm
  simp only [Bool.or_eq_false_iff, beq_eq_false_iff_ne, ne_eq] at hc
  rcases h.chars ch hm with h | h | h
  · rw [h] at hc; exact absurd hc.1.1 (by decide)
  · exact hc.1.2 h
  · exact hc.2 h

theorem Needle.not_fixed {n t : Name} (h : Needle n) (ht : strstr t (und 4) = false) : ¬ n <:+: t := by
  intro hc
  have := (strstr_iff (und 4) t).2 (h.run.trans hc)
  rw [ht] at this
  exact absurd this (by decide)

theorem Needle.split {n a b : Name} (h : Needle n) {ch : Char} (hc : (ch.isAlphanum || ch == '_' || ch == '$') = false)
    (hi : n <:+: a ++ ch :: b) : n <:+: a ∨ n <:+: b := infix_cons_split (h.not_mem hc) hi

theorem class_run {c : Name} (h : TidyClass c) : strstr c (und 4) = false := by
  rw [Bool.eq_false_iff, ne_eq, strstr_iff]
  rintro ⟨a, b, rfl⟩
  refine (class_part h).1.noRun ⟨mangle a, mangle b, ?_⟩
  simp only [mangle_append]
  rfl

theorem part_run {m : Name} (h : Part 2 m) : strstr m (und 4) = false := by
  rw [Bool.eq_false_iff, ne_eq, strstr_iff]
  exact (h.mono (by omega)).noRun

theorem args_split {n : Name} (h : Needle n) : ∀ {as : List Name} {t : Name}, (∀ a ∈ as, strstr a (und 4) = false) →
    n <:+: argsText as ++ t → as ≠ [] → n <:+: t
  | [], _, _, _, h => absurd rfl h
  | [a], t, ha, hi, _ => by
    simp only [argsText, List.cons_append, List.append_assoc, List.nil_append] at hi
    rcases h.split (a := []) (by decide) hi with hi | hi
    · exact absurd hi (h.not_fixed (by decide))
    · rcases h.split (by decide) hi with hi | hi
      · exact absurd hi (h.not_fixed (ha a (by simp)))
      · exact hi
  | a :: b :: as, t, ha, hi, _ => by
    rw [argsText] at hi
    · simp only [List.cons_append, List.append_assoc] at hi
      rcases h.split (a := []) (by decide) hi with hi | hi
      · exact absurd hi (h.not_fixed (by decide))
      · rcases h.split (by decide) hi with hi | hi
        · exact absurd hi (h.not_fixed (ha a (by simp)))
        · rw [show (", ".toList : Name) = [','] ++ ' ' :: [] from by decide +kernel] at hi
          simp only [List.cons_append, List.nil_append] at hi
          rcases h.split (a := []) (by decide) hi with hi | hi
          · exact absurd hi (h.not_fixed (by decide))
          · rcases h.split (a := []) (by decide) hi with hi | hi
            · exact absurd hi (h.not_fixed (by decide))
            · exact args_split h (fun a h => ha a (List.mem_cons_of_mem _ h)) hi (by simp)
    · simp

theorem lookup_split {n : Name} (h : Needle n) {kind init : Name} {pre post : Char} {test fn fn' : Name} {args : List Name} {id t : Name}
    (h1 : strstr kind (und 4) = false) (h2 : strstr init (und 4) = false)
    (h3 : (pre.isAlphanum || pre == '_' || pre == '$') = false) (h4 : (post.isAlphanum || post == '_' || post == '$') = false)
    (h5 : strstr test (und 4) = false) (hfn : fn = fn' ++ ' ' :: []) (h6 : strstr fn' (und 4) = false)
    (h7 : ∀ a ∈ args, strstr a (und 4) = false) (h8 : args ≠ [])
    (hi : n <:+: lookupText kind init pre post test fn args id ++ t) : n <:+: id ∨ n <:+: t := by
  subst hfn
  unfold lookupText at hi
  simp only [List.append_assoc, List.cons_append] at hi
  rcases h.split (by decide) hi with hi | hi
  · exact absurd hi (h.not_fixed h1)
  rcases h.split (by decide) hi with hi | hi
  · exact Or.inl hi
  rcases h.split h3 hi with hi | hi
  · exact absurd hi (h.not_fixed h2)
  rcases h.split h4 hi with hi | hi
  · exact Or.inl hi
  rcases h.split (by decide) hi with hi | hi
  · exact absurd hi (h.not_fixed h5)
  rcases h.split (by decide) hi with hi | hi
  · exact Or.inl hi
  rcases h.split (by decide) hi with hi | hi
  · exact absurd hi (h.not_fixed h6)
  rw [List.nil_append] at hi
  have hi := args_split h h7 hi h8
  rw [show (", &error_id);\n    if (error_id) {\n      goto END_OF_METHOD;\n    }\n  }\n".toList : Name)
    = ", &error_id);\n    if (error_id) {\n      goto END_OF_METHOD;\n    }\n  }".toList ++ '\n' :: [] from by decide +kernel] at hi
  simp only [List.append_assoc, List.cons_append, List.nil_append] at hi
  rcases h.split (by decide) hi with hi | hi
  · exact absurd hi (h.not_fixed (by decide +kernel))
  · exact Or.inr hi

theorem decl_split {n : Name} (h : Needle n) {d : Ent} (hd : TidyEnt d) {t : Name} (hi : n <:+: declText d ++ t) :
    n <:+: ident d ∨ n <:+: t := by
  cases d with
  | basicType c =>
    refine lookup_split h (fn' := "= SPVM_IMPLEMENT_GET_BASIC_TYPE_BY_NAME(env, stack,".toList) (by decide +kernel) (by decide +kernel) (by decide) (by decide) (by decide +kernel)
      (by decide +kernel) (by decide +kernel) ?_ (by simp) hi
    intro a ha
    simp only [List.mem_singleton] at ha
    subst ha; exact class_run hd
  | classVar c v =>
    refine lookup_split h (fn' := "= SPVM_IMPLEMENT_GET_CLASS_VAR_BY_NAME(env, stack,".toList) (by decide +kernel) (by decide +kernel) (by decide) (by decide) (by decide +kernel)
      (by decide +kernel) (by decide +kernel) ?_ (by simp) hi
    intro a ha
    simp only [List.mem_cons, List.not_mem_nil, or_false] at ha
    rcases ha with rfl | rfl
    · exact class_run hd.1
    · exact part_run (var_part hd.2)
  | fieldOffset c v =>
    refine lookup_split h (fn' := "= SPVM_IMPLEMENT_GET_FIELD_OFFSET_BY_NAME(env, stack,".toList) (by decide +kernel) (by decide +kernel) (by decide) (by decide) (by decide +kernel)
      (by decide +kernel) (by decide +kernel) ?_ (by simp) hi
    intro a ha
    simp only [List.mem_cons, List.not_mem_nil, or_false] at ha
    rcases ha with rfl | rfl
    · exact class_run hd.1
    · exact part_run (member_part hd.2)
  | method c v =>
    refine lookup_split h (fn' := "= SPVM_IMPLEMENT_GET_METHOD_BY_NAME(env, stack,".toList) (by decide +kernel) (by decide +kernel) (by decide) (by decide) (by decide +kernel)
      (by decide +kernel) (by decide +kernel) ?_ (by simp) hi
    intro a ha
    simp only [List.mem_cons, List.not_mem_nil, or_false] at ha
    rcases ha with rfl | rfl
    · exact class_run hd.1
    · exact part_run (member_part hd.2)

theorem decls_split {n : Name} (h : Needle n) : ∀ {ds : List Ent}, (∀ d ∈ ds, TidyEnt d) → n <:+: declsText ds → ∃ d ∈ ds, n <:+: ident d
  | [], _, hi => absurd hi (h.not_fixed (by decide))
  | d :: ds, hd, hi => by
    rw [declsText, List.flatMap_cons] at hi
    rcases decl_split h (hd d (by simp)) hi with hi | hi
    · exact ⟨d, by simp, hi⟩
    · obtain ⟨d', h1, h2⟩ := decls_split h (fun d h => hd d (List.mem_cons_of_mem _ h)) hi
      exact ⟨d', List.mem_cons_of_mem _ h1, h2⟩

theorem ident_in_decl (e : Ent) : ident e <:+: declText e := by
  have : ∀ kind init pre post test fn args id, id <:+: lookupText kind init pre post test fn args id := by
    intro kind init pre post test fn args id
    unfold lookupText
    refine ⟨kind ++ [' '], ' ' :: (init ++ pre :: (id ++ post :: (test ++ ' ' :: (id ++ ' ' :: (fn ++ (argsText args ++
      ", &error_id);\n    if (error_id) {\n      goto END_OF_METHOD;\n    }\n  }\n".toList)))))), ?_⟩
    simp only [List.append_assoc, List.cons_append, List.nil_append]
  cases e <;> exact this ..

theorem ident_in_decls {e : Ent} {ds : List Ent} (h : e ∈ ds) : ident e <:+: declsText ds := by
  induction ds with
  | nil => simp at h
  | cons d ds ih =>
    rw [declsText, List.flatMap_cons]
    rcases List.mem_cons.1 h with rfl | h
    · exact (ident_in_decl e).trans ⟨[], _, rfl⟩
    · exact (ih h).trans ⟨declText d, [], by simp [declsText]⟩

/-! ## The loop -/

theorem declare_sub {ds : List Ent} {e d : Ent} (h : d ∈ declare ds e) : d ∈ ds ∨ d = e := by
  unfold declare at h
  split at h
  · exact Or.inl h
  · simpa using h

theorem fold_sub : ∀ {es ds : List Ent} {d : Ent}, d ∈ es.foldl declare ds → d ∈ ds ∨ d ∈ es
  | [], _, _, h => Or.inl h
  | e :: es, ds, d, h => by
    rcases fold_sub (es := es) h with h | h
    · rcases declare_sub h with h | rfl
      · exact Or.inl h
      · exact Or.inr (by simp)
    · exact Or.inr (List.mem_cons_of_mem _ h)

theorem declare_nodup {ds : List Ent} {e : Ent} (h : (ds.map ident).Nodup) : ((declare ds e).map ident).Nodup := by
  unfold declare
  split
  · exact h
  · rename_i hs
    rw [List.map_append, List.nodup_append]
    refine ⟨h, by simp, ?_⟩
    intro x hx y hy hxy
    simp only [List.map_cons, List.map_nil, List.mem_singleton] at hy
    obtain ⟨d, hd, rfl⟩ := List.mem_map.1 hx
    apply hs
    rw [strstr_iff, ← hy, ← hxy]
    exact ident_in_decls hd

theorem fold_nodup : ∀ {es ds : List Ent}, (ds.map ident).Nodup → ((es.foldl declare ds).map ident).Nodup
  | [], _, h => h
  | _ :: es, _, h => fold_nodup (es := es) (declare_nodup h)

theorem declare_mono {ds : List Ent} {e d : Ent} (h : d ∈ ds) : d ∈ declare ds e := by
  unfold declare
  split
  · exact h
  · exact List.mem_append_left _ h

theorem fold_mono : ∀ {es ds : List Ent} {d : Ent}, d ∈ ds → d ∈ es.foldl declare ds
  | [], _, _, h => h
  | _ :: es, _, _, h => fold_mono (es := es) (declare_mono h)

theorem declare_mem {ds : List Ent} {e : Ent} (hd : ∀ d ∈ ds, TidyEnt d) (he : TidyEnt e) : e ∈ declare ds e := by
  unfold declare
  split
  · rename_i hs
    rw [strstr_iff] at hs
    obtain ⟨d, h1, h2⟩ := decls_split (needle_ident he) hd hs
    rw [ident_infix he (hd d h1) h2]
    exact h1
  · simp

theorem fold_mem : ∀ {es ds : List Ent} {e : Ent}, (∀ d ∈ ds, TidyEnt d) → (∀ d ∈ es, TidyEnt d) → e ∈ es → e ∈ es.foldl declare ds
  | [], _, _, _, _, h => by simp at h
  | e' :: es, ds, e, hd, he, h => by
    have hd' : ∀ d ∈ declare ds e', TidyEnt d := by
      intro d h
      rcases declare_sub h with h | rfl
      · exact hd d h
      · exact he _ (by simp)
    rcases List.mem_cons.1 h with rfl | h
    · exact fold_mono (es := es) (declare_mem hd (he e (by simp)))
    · exact fold_mem (es := es) hd' (fun d h => he d (List.mem_cons_of_mem _ h)) h

theorem ident_inj {e e' : Ent} (h : TidyEnt e) (h' : TidyEnt e') (hi : ident e = ident e') : e = e' :=
  ident_infix h h' (by rw [hi]; exact List.infix_rfl)

end SPVM.Precomp
