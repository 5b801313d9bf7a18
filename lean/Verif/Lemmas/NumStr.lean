import Verif.Model.NumStr
import Verif.Spec.Numeral
/-!
# Lemmas about `strtoll`
-/
namespace SPVM
namespace NumStr
open VM (Bytes)

/-- Positional notation, starting from `acc`. -/
def vb (base acc : Nat) (ds : Bytes) : Nat := ds.foldl (fun a b => a * base + dv b) acc

theorem vb_cons (base acc : Nat) (b : UInt8) (ds : Bytes) : vb base acc (b :: ds) = vb base (acc * base + dv b) ds := rfl

theorem vb_ge {base : Nat} (hb : 0 < base) : ∀ (ds : Bytes) (acc : Nat), acc ≤ vb base acc ds
  | [], acc => Nat.le_refl _
  | b :: ds, acc => by
    rw [vb_cons]
    have h := vb_ge hb ds (acc * base + dv b)
    have : acc ≤ acc * base := Nat.le_mul_of_pos_right acc hb
    omega

theorem overflow_iff {base acc d : Nat} (hb : 0 < base) (hd : d < base) :
    (acc > 18446744073709551615 / base ∨ (acc = 18446744073709551615 / base ∧ d > 18446744073709551615 % base)) ↔
      acc * base + d > 18446744073709551615 := by
  have hdm := Nat.div_add_mod 18446744073709551615 base
  have hml := Nat.mod_lt 18446744073709551615 hb
  generalize 18446744073709551615 / base = q at *
  generalize 18446744073709551615 % base = r at *
  rw [Nat.mul_comm] at hdm
  constructor
  · rintro (h | ⟨h, h'⟩)
    · have : (q + 1) * base ≤ acc * base := Nat.mul_le_mul_right _ h
      rw [Nat.add_mul] at this
      omega
    · subst h; omega
  · intro h
    rcases Nat.lt_trichotomy acc q with hlt | heq | hgt
    · have : (acc + 1) * base ≤ q * base := Nat.mul_le_mul_right _ hlt
      rw [Nat.add_mul] at this
      omega
    · subst heq; exact .inr ⟨rfl, by omega⟩
    · exact .inl hgt

/-- The test of the digit loop. -/
def isDig (base : Nat) (b : UInt8) : Bool := decide (dv b < base)

theorem digitLoop_spec {base : Nat} (hb : 0 < base) : ∀ (bs : Bytes) (acc : Nat) (ovf any : Bool),
    ∃ a o, digitLoop base acc ovf any bs = (a, o, (any || !(bs.takeWhile (isDig base)).isEmpty), bs.dropWhile (isDig base)) ∧
      o = (ovf || decide (vb base acc (bs.takeWhile (isDig base)) > 18446744073709551615)) ∧
      (o = false → a = vb base acc (bs.takeWhile (isDig base)))
      ∨ (acc > 18446744073709551615)
  | [], acc, ovf, any => by
    by_cases h : acc > 18446744073709551615
    · exact ⟨0, false, .inr h⟩
    · exact ⟨acc, ovf, .inl (by simp [digitLoop, vb]; omega)⟩
  | b :: bs, acc, ovf, any => by
    by_cases h : acc > 18446744073709551615
    · exact ⟨0, false, .inr h⟩
    · by_cases hd : dv b < base
      · have hdig : isDig base b = true := by simp [isDig, hd]
        simp only [digitLoop, if_pos hd, List.takeWhile_cons, hdig, if_true, List.dropWhile_cons, vb_cons]
        by_cases ho : acc * base + dv b > 18446744073709551615
        · rw [if_pos ((overflow_iff hb hd).2 ho)]
          obtain ⟨a, o, h1 | h1⟩ := digitLoop_spec hb bs acc true true
          · obtain ⟨h1, h2, h3⟩ := h1
            refine ⟨a, o, .inl ⟨by rw [h1]; simp, ?_, ?_⟩⟩
            · have := vb_ge hb (bs.takeWhile (isDig base)) (acc * base + dv b)
              simp at h2
              rw [h2]
              simp; right; omega
            · intro hh; rw [h2] at hh; simp at hh
          · exact absurd h1 h
        · rw [if_neg (fun hn => ho ((overflow_iff hb hd).1 hn))]
          obtain ⟨a, o, h1 | h1⟩ := digitLoop_spec hb bs (acc * base + dv b) ovf true
          · obtain ⟨h1, h2, h3⟩ := h1
            exact ⟨a, o, .inl ⟨by rw [h1]; simp, h2, h3⟩⟩
          · exact absurd h1 ho
      · have hdig : isDig base b = false := by simp [isDig, hd]
        refine ⟨acc, ovf, .inl ?_⟩
        simp [digitLoop, if_neg hd, List.takeWhile_cons, hdig, List.dropWhile_cons, vb]
        omega

/-- The value within the bounds of a type. -/
def clampI (lo hi z : Int) : Int := max lo (min hi z)

theorem convert_digits {base : Nat} (hb : 0 < base) (neg : Bool) (bs : Bytes) :
    let r := digitLoop base 0 false false bs
    r.2.2.1 = !(bs.takeWhile (isDig base)).isEmpty ∧
    ∀ z : Int, z = (if neg then -(vb base 0 (bs.takeWhile (isDig base)) : Int) else vb base 0 (bs.takeWhile (isDig base))) →
    convert neg r.1 r.2.1 r.2.2.2 =
      ⟨clampI (-9223372036854775808) 9223372036854775807 z,
        decide (z < -9223372036854775808 ∨ z > 9223372036854775807), bs.dropWhile (isDig base)⟩ := by
  obtain ⟨a, o, h | h⟩ := digitLoop_spec hb bs 0 false false
  · obtain ⟨h1, h2, h3⟩ := h
    simp only [h1]
    refine ⟨by simp, ?_⟩
    intro z hz
    unfold convert clampI
    generalize hn : vb base 0 (bs.takeWhile (isDig base)) = n at *
    cases o with
    | true =>
      simp at h2
      cases neg <;> simp at hz ⊢ <;> omega
    | false =>
      simp at h2
      have ha := h3 rfl
      subst ha
      cases neg
      · simp at hz ⊢
        split <;> simp <;> omega
      · simp at hz ⊢
        split <;> simp <;> omega
  · omega

theorem sign_cases (t : Bytes) : ∃ sg, t = sg ++ (sign t).2 ∧ ((sg = [] ∧ (sign t).1 = false) ∨
    (sg = [43] ∧ (sign t).1 = false) ∨ (sg = [45] ∧ (sign t).1 = true)) := by
  cases t with
  | nil => exact ⟨[], by simp [sign]⟩
  | cons b bs =>
    by_cases h : b = 45
    · exact ⟨[45], by simp [sign, h]⟩
    · by_cases h' : b = 43
      · exact ⟨[43], by simp [sign, h']⟩
      · exact ⟨[], by simp [sign, h, h']⟩

theorem hasPrefix_cases {u : Bytes} (h : hasPrefix u = true) :
    ∃ v, u = [48, 120] ++ v ∨ u = [48, 88] ++ v := by
  match u, h with
  | a :: b :: v, h =>
    simp [hasPrefix] at h
    obtain ⟨rfl, rfl | rfl⟩ := h
    · exact ⟨v, .inl rfl⟩
    · exact ⟨v, .inr rfl⟩

/-- The parts of a text that starts with a numeral. -/
structure Parts (base : Nat) (t : Bytes) where
  ws : Bytes
  sg : Bytes
  pre : Bytes
  ds : Bytes
  rest : Bytes
  eq : t = ws ++ (sg ++ (pre ++ (ds ++ rest)))
  hws : ∀ b ∈ ws, isSpace b = true
  hsg : sg = [] ∨ sg = [43] ∨ sg = [45]
  hpre : (pre = [] ∧ (base = 16 → hasPrefix (ds ++ rest) = false)) ∨ (base = 16 ∧ (pre = [48, 120] ∨ pre = [48, 88]))
  hne : ds ≠ []
  hds : ∀ b ∈ ds, isDig base b = true
  hrest : ∀ b r, rest = b :: r → isDig base b = false

/-- The integer the parts denote. -/
def Parts.val {base : Nat} {t : Bytes} (p : Parts base t) : Int :=
  if p.sg = [45] then -(vb base 0 p.ds : Int) else vb base 0 p.ds

/-- The outcome of `strtoll` on such a text. -/
def Parts.out {base : Nat} {t : Bytes} (p : Parts base t) : Parsed :=
  ⟨clampI (-9223372036854775808) 9223372036854775807 p.val,
    decide (p.val < -9223372036854775808 ∨ p.val > 9223372036854775807), p.rest⟩

theorem dropWhile_head {p : UInt8 → Bool} {l : Bytes} {b r} (h : l.dropWhile p = b :: r) : p b = false := by
  induction l with
  | nil => simp at h
  | cons a l ih =>
    rw [List.dropWhile_cons] at h
    split at h
    · exact ih h
    · cases h; simp_all

theorem takeWhile_all {p : UInt8 → Bool} {l : Bytes} : ∀ b ∈ l.takeWhile p, p b = true := by
  induction l with
  | nil => simp
  | cons a l ih =>
    intro b hb
    rw [List.takeWhile_cons] at hb
    split at hb
    · rcases List.mem_cons.1 hb with e | e
      · subst e; assumption
      · exact ih b e
    · simp at hb

theorem takeWhile_append {p : UInt8 → Bool} {l r : Bytes} (h : ∀ b ∈ l, p b = true) (hr : ∀ b t, r = b :: t → p b = false) :
    (l ++ r).takeWhile p = l ∧ (l ++ r).dropWhile p = r := by
  induction l with
  | nil =>
    cases r with
    | nil => simp
    | cons b t => simp [hr b t rfl]
  | cons a l ih =>
    have := ih (fun b hb => h b (by simp [hb]))
    simp [h a (by simp), this]

theorem isEmpty_not {l : Bytes} : (!l.isEmpty) = true ↔ l ≠ [] := by cases l <;> simp

/-- Every text either starts with a numeral, and `strtoll` finds it, or `strtoll` reports 0 with nothing read (or, in base
16, only the `0` of a `0x` read). -/
theorem strtoll_cases (s : Bytes) {base : Nat} (hb : 0 < base) :
    (∃ p : Parts base (cstr s), strtoll s base = p.out) ∨
    (strtoll s base = ⟨0, false, cstr s⟩) ∨
    (base = 16 ∧ ∃ b r, strtoll s base = ⟨0, false, b :: r⟩) := by
  have ht : cstr s = (cstr s).takeWhile isSpace ++ (cstr s).dropWhile isSpace := (List.takeWhile_append_dropWhile).symm
  have hws : ∀ b ∈ (cstr s).takeWhile isSpace, isSpace b = true := takeWhile_all
  unfold strtoll
  simp only
  generalize (cstr s).takeWhile isSpace = ws at *
  generalize (cstr s).dropWhile isSpace = t at *
  obtain ⟨sg, hs1, hs2⟩ := sign_cases t
  generalize hn : (sign t).1 = neg at *
  generalize (sign t).2 = u at *
  have hsg : sg = [] ∨ sg = [43] ∨ sg = [45] := by
    rcases hs2 with ⟨h, _⟩ | ⟨h, _⟩ | ⟨h, _⟩ <;> simp [h]
  have hneg : neg = decide (sg = [45]) := by
    rcases hs2 with ⟨h, h'⟩ | ⟨h, h'⟩ | ⟨h, h'⟩ <;> simp [h, h']
  by_cases hp : base = 16 ∧ hasPrefix u = true
  · rw [if_pos hp]
    have hc := convert_digits hb neg (u.drop 2)
    simp only at hc
    obtain ⟨hc1, hc2⟩ := hc
    obtain ⟨v, hv⟩ := hasPrefix_cases hp.2
    by_cases he : (!((u.drop 2).takeWhile (isDig base)).isEmpty) = true
    · rw [hc1, if_pos he]
      left
      obtain ⟨pre, hpre, hu⟩ : ∃ pre, (pre = [48, 120] ∨ pre = [48, 88]) ∧ u = pre ++ u.drop 2 := by
        rcases hv with h | h
        · exact ⟨[48, 120], .inl rfl, by simp [h]⟩
        · exact ⟨[48, 88], .inr rfl, by simp [h]⟩
      refine ⟨⟨ws, sg, pre, (u.drop 2).takeWhile (isDig base), (u.drop 2).dropWhile (isDig base), ?_, hws, hsg,
        .inr ⟨hp.1, hpre⟩, isEmpty_not.1 he, takeWhile_all, fun b r h => dropWhile_head h⟩, ?_⟩
      · rw [List.takeWhile_append_dropWhile, ← hu, ← hs1]; exact ht
      · apply hc2; simp [Parts.val, hneg]
    · rw [hc1, if_neg he]
      right; right
      refine ⟨hp.1, ?_⟩
      rcases hv with h | h <;> exact ⟨_, v, by rw [h]; rfl⟩
  · rw [if_neg hp]
    have hc := convert_digits hb neg u
    simp only at hc
    obtain ⟨hc1, hc2⟩ := hc
    by_cases he : (!(u.takeWhile (isDig base)).isEmpty) = true
    · rw [hc1, if_pos he]
      left
      refine ⟨⟨ws, sg, [], u.takeWhile (isDig base), u.dropWhile (isDig base), ?_, hws, hsg,
        .inl ⟨rfl, ?_⟩, isEmpty_not.1 he, takeWhile_all, fun b r h => dropWhile_head h⟩, ?_⟩
      · rw [List.takeWhile_append_dropWhile, List.nil_append, ← hs1]; exact ht
      · intro hb16
        rw [List.takeWhile_append_dropWhile]
        simpa [hb16] using hp
      · apply hc2; simp [Parts.val, hneg]
    · rw [hc1, if_neg he]
      exact .inr (.inl rfl)

theorem isDig_lt {base : Nat} (hb : base ≤ 16) {b : UInt8} (h : isDig base b = true) :
    isSpace b = false ∧ b ≠ 43 ∧ b ≠ 45 ∧ b ≠ 0 := by
  unfold isDig dv at h
  unfold isSpace
  have hb' : b.toNat < 256 := b.toNat_lt
  refine ⟨?_, ?_, ?_, ?_⟩
  · simp at h ⊢; split at h <;> (try split at h) <;> (try split at h) <;> omega
  all_goals
    rintro rfl
    simp at h
    omega

theorem sign_of {sg u : Bytes} (hsg : sg = [] ∨ sg = [43] ∨ sg = [45]) (hu : ∀ b r, u = b :: r → b ≠ 43 ∧ b ≠ 45) :
    sign (sg ++ u) = (decide (sg = [45]), u) := by
  rcases hsg with rfl | rfl | rfl
  · cases u with
    | nil => simp [sign]
    | cons b r => have := hu b r rfl; simp [sign, this]
  · simp [sign]
  · simp [sign]

/-- `strtoll` on a text that starts with a numeral. -/
theorem strtoll_parts {s : Bytes} {base : Nat} (hb : 0 < base) (hb16 : base ≤ 16) (p : Parts base (cstr s)) :
    strtoll s base = p.out := by
  obtain ⟨d, ds', hds'⟩ := List.exists_cons_of_ne_nil p.hne
  have hd := isDig_lt hb16 (p.hds d (by simp [hds']))
  -- the first byte after the sign
  have hhead : ∀ b r, p.pre ++ (p.ds ++ p.rest) = b :: r → isSpace b = false ∧ b ≠ 43 ∧ b ≠ 45 := by
    intro b r h
    rcases p.hpre with ⟨h1, _⟩ | ⟨_, h1 | h1⟩
    · rw [h1, hds'] at h; simp at h; rw [← h.1]; exact ⟨hd.1, hd.2.1, hd.2.2.1⟩
    · rw [h1] at h; simp at h; rw [← h.1]; decide
    · rw [h1] at h; simp at h; rw [← h.1]; decide
  have hhead2 : ∀ b r, p.sg ++ (p.pre ++ (p.ds ++ p.rest)) = b :: r → isSpace b = false := by
    intro b r h
    rcases p.hsg with h1 | h1 | h1
    · rw [h1] at h; exact (hhead b r h).1
    · rw [h1] at h; simp at h; rw [← h.1]; decide
    · rw [h1] at h; simp at h; rw [← h.1]; decide
  have hdrop : (cstr s).dropWhile isSpace = p.sg ++ (p.pre ++ (p.ds ++ p.rest)) := by
    have := (takeWhile_append p.hws hhead2).2
    rw [← p.eq] at this
    exact this
  have hsign := sign_of p.hsg (fun b r h => (hhead b r h).2)
  have htw := takeWhile_append p.hds p.hrest
  unfold strtoll
  simp only [hdrop, hsign]
  rcases p.hpre with ⟨h1, h2⟩ | ⟨h16, h1⟩
  · rw [if_neg (by rw [h1]; rintro ⟨a, b⟩; have := h2 a; simp_all)]
    rw [h1, List.nil_append]
    have hc := convert_digits hb (decide (p.sg = [45])) (p.ds ++ p.rest)
    simp only [htw.1, htw.2] at hc
    rw [hc.1, if_pos (isEmpty_not.2 p.hne)]
    exact hc.2 p.val (by simp [Parts.val])
  · have hpf : hasPrefix (p.pre ++ (p.ds ++ p.rest)) = true := by
      rcases h1 with h1 | h1 <;> rw [h1] <;> simp [hasPrefix]
    have hdr : (p.pre ++ (p.ds ++ p.rest)).drop 2 = p.ds ++ p.rest := by
      rcases h1 with h1 | h1 <;> rw [h1] <;> simp
    rw [if_pos ⟨h16, hpf⟩, hdr]
    have hc := convert_digits hb (decide (p.sg = [45])) (p.ds ++ p.rest)
    simp only [htw.1, htw.2] at hc
    rw [hc.1, if_pos (isEmpty_not.2 p.hne)]
    exact hc.2 p.val (by simp [Parts.val])

/-! ## The specification -/

theorem digitValue_dv {b : UInt8} {d : Nat} (h : Spec.digitValue b = some d) : dv b = d ∧ d < 16 := by
  unfold Spec.digitValue at h
  unfold dv
  repeat' split at h
  all_goals simp at h
  all_goals (repeat' split) <;> omega

theorem dv_digitValue {b : UInt8} (h : dv b < 16) : Spec.digitValue b = some (dv b) := by
  unfold dv at h
  unfold Spec.digitValue dv
  repeat' split at h
  all_goals (try omega)
  all_goals (repeat' split) <;> first | omega | (congr 1; done) | (congr 1; omega) | simp_all

theorem isDig_iff {base : Nat} (hb : base ≤ 16) (b : UInt8) : isDig base b = true ↔ Spec.IsDigit base b := by
  unfold isDig Spec.IsDigit
  constructor
  · intro h
    have h' : dv b < base := by simpa using h
    exact ⟨dv b, dv_digitValue (by omega), h'⟩
  · rintro ⟨d, h1, h2⟩
    rw [(digitValue_dv h1).1]; simpa using h2

theorem vb_snoc (base acc : Nat) (ds : Bytes) (b : UInt8) : vb base acc (ds ++ [b]) = vb base acc ds * base + dv b := by
  simp [vb, List.foldl_append]

theorem denotes_vb {base : Nat} {ds : Bytes} {n : Nat} (h : Spec.Denotes base ds n) :
    ds ≠ [] ∧ (∀ b ∈ ds, isDig base b = true) ∧ vb base 0 ds = n := by
  induction h with
  | one h1 h2 =>
    have := (digitValue_dv h1).1
    simp [vb, isDig, this, h2]
  | snoc hd h1 h2 ih =>
    have := (digitValue_dv h1).1
    refine ⟨by simp, ?_, by rw [vb_snoc, ih.2.2, this]⟩
    intro b hb
    rcases List.mem_append.1 hb with hb | hb
    · exact ih.2.1 b hb
    · simp at hb; subst hb; simp [isDig, this, h2]

theorem vb_denotes {base : Nat} (hb : base ≤ 16) : ∀ (k : Nat) (ds : Bytes), ds.length = k → ds ≠ [] →
    (∀ b ∈ ds, isDig base b = true) → Spec.Denotes base ds (vb base 0 ds)
  | 0, ds, hk, hne, _ => by simp at hk; exact absurd hk hne
  | k + 1, ds, hk, hne, hd => by
    obtain ⟨ds', b, rfl⟩ : ∃ ds' b, ds = ds' ++ [b] := ⟨ds.dropLast, ds.getLast hne, (List.dropLast_concat_getLast hne).symm⟩
    have hlt : dv b < base := by have := hd b (by simp); simpa [isDig] using this
    have hv := dv_digitValue (b := b) (by omega)
    rw [vb_snoc]
    by_cases he : ds' = []
    · subst he
      have := Spec.Denotes.one (base := base) hv hlt
      simpa [vb] using this
    · exact Spec.Denotes.snoc (vb_denotes hb k ds' (by simpa using hk) he (fun x hx => hd x (by simp [hx]))) hv hlt

theorem isSpace_iff (b : UInt8) : isSpace b = true ↔ Spec.IsWhite b := by
  unfold isSpace Spec.IsWhite
  simp only [← UInt8.toNat_inj]
  simp
  omega

/-- The parts denote a numeral. -/
theorem Parts.numeral {base : Nat} (hb : base ≤ 16) {t : Bytes} (p : Parts base t) :
    ∃ t', t = t' ++ p.rest ∧ Spec.Numeral base t' p.val := by
  refine ⟨p.ws ++ p.sg ++ p.pre ++ p.ds, p.eq.trans (by simp), p.ws, p.sg, p.pre, p.ds, vb base 0 p.ds, rfl,
    fun b hb => (isSpace_iff b).1 (p.hws b hb), ?_, vb_denotes hb _ p.ds rfl p.hne p.hds, ?_⟩
  · rcases p.hpre with h | h
    · exact .inl h.1
    · exact .inr h
  · unfold Parts.val
    rcases p.hsg with h | h | h <;> rw [h] <;> simp [Spec.Signed]

/-- A numeral at the start of a text, not followed by a digit, gives parts; in base 16 the numeral must not be the `0` of a
`0x` that starts a longer one. -/
theorem numeral_parts {base : Nat} {t t' rest : Bytes} {z : Int} (h : Spec.Numeral base t' z)
    (he : t = t' ++ rest) (hrest : ∀ b r, rest = b :: r → isDig base b = false)
    (h16 : base = 16 → rest = []) : ∃ p : Parts base t, p.val = z ∧ p.rest = rest := by
  obtain ⟨ws, sg, pre, ds, n, e, hws, hpre, hden, hsg⟩ := h
  obtain ⟨hne, hds, hv⟩ := denotes_vb hden
  have hsg' : (sg = [] ∨ sg = [43] ∨ sg = [45]) ∧ z = (if sg = [45] then -(n : Int) else n) := by
    rcases hsg with ⟨rfl, h⟩ | ⟨rfl, h⟩ | ⟨rfl, h⟩ <;> simp [h]
  refine ⟨⟨ws, sg, pre, ds, rest, by rw [he, e]; simp, fun b hb => (isSpace_iff b).2 (hws b hb), hsg'.1, ?_, hne, hds,
    hrest⟩, ?_, rfl⟩
  · rcases hpre with h | h
    · refine .inl ⟨h, fun hb => ?_⟩
      rw [h16 hb, List.append_nil]
      match ds, hds with
      | [], _ => rfl
      | [_], _ => rfl
      | a :: b :: r, hds =>
        have := hds b (by simp)
        subst hb
        cases hh : hasPrefix (a :: b :: r) with
        | false => rfl
        | true =>
          simp [hasPrefix] at hh
          rcases hh.2 with e | e <;> subst e <;> simp [isDig, dv] at this
    · exact .inr h
  · simp [Parts.val, hv, hsg'.2]

end NumStr
end SPVM
