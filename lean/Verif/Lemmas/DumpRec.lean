import Verif.Lemmas.Dump
/-!
# Lemmas about `dump`: the recursion
-/
namespace SPVM
namespace Dump
open VM (Bytes)
open Spec.Dump (Tree Shown Depicts visits visitsL visitsF FirstInFull indent sep decimal number numberLines pretty lines fieldLines target
  arrayType hex2 text)

/-- The table of addresses has exactly those of `s`. -/
def SeenBy (p : Nat → Bytes) (st : St) (s : List Nat) : Prop := ∀ a, st.seen.contains (p a) = true ↔ a ∈ s

theorem SeenBy.add {p st s} (h : SeenBy p st s) (b : Bytes) : SeenBy p (st.add b) s := h

/-- Lines with a text in front. -/
def glines (p : Nat → Bytes) (d : Nat) : List (Bytes × Tree) → Bytes
  | [] => []
  | (b, t) :: gs => indent d ++ b ++ pretty p d t ++ sep (!gs.isEmpty) ++ glines p d gs

def gvisits : List (Bytes × Tree) → List (Nat × Bool)
  | [] => []
  | (_, t) :: gs => visits t ++ gvisits gs

theorem lines_eq (p d) : ∀ ts, lines p d ts = glines p d (ts.map (fun t => ([], t))) := by
  intro ts
  induction ts with
  | nil => simp [lines, glines]
  | cons t ts ih => simp [lines, glines, ih]

theorem visitsL_eq : ∀ ts, visitsL ts = gvisits (ts.map (fun t => (([] : Bytes), t))) := by
  intro ts
  induction ts with
  | nil => simp [visitsL, gvisits]
  | cons t ts ih => simp [visitsL, gvisits, ih]

theorem fieldLines_eq (p d) : ∀ fs, fieldLines p d fs = glines p d (fs.map (fun f => (f.1 ++ text " => ", f.2))) := by
  intro fs
  induction fs with
  | nil => simp [fieldLines, glines]
  | cons f fs ih => obtain ⟨n, t⟩ := f; simp [fieldLines, glines, ih]

theorem visitsF_eq : ∀ fs, visitsF fs = gvisits (fs.map (fun f => (f.1 ++ text " => ", f.2))) := by
  intro fs
  induction fs with
  | nil => simp [visitsF, gvisits]
  | cons f fs ih => obtain ⟨n, t⟩ := f; simp [visitsF, gvisits, ih]

theorem sep_eq (b : Bool) : (if b then lit "\n" else lit ",\n") = sep (!b) := by
  cases b <;> rfl

/-- What one call of the recursion does for a picture `t` with the text `b` in front. -/
def Good (p : Nat → Bytes) (d : Nat) (s : List Nat) (st st' : St) (b : Bytes) (t : Tree) : Prop :=
  st'.buf = st.buf ++ b ++ pretty p d t ∧ SeenBy p st' (after s (visits t))

/-! ## From pictures to texts -/

theorem loop_complete (p : Nat → Bytes) (d : Nat) (f : Nat → α → St → Out St) : ∀ (xs : List α) (gs : List (Bytes × Tree)),
    gs.length = xs.length →
    (∀ (i : Nat) x b t, xs[i]? = some x → gs[i]? = some (b, t) → ∀ s st, Once s (visits t) → SeenBy p st s →
      ∃ k st', (∀ k', k ≤ k' → f k' x st = .ok st') ∧ Good p d s st st' b t) →
    ∀ s st, Once s (gvisits gs) → SeenBy p st s →
      ∃ k st', (∀ k', k ≤ k' → loop (f k') d xs st = .ok st') ∧ st'.buf = st.buf ++ glines p d gs ∧ SeenBy p st' (after s (gvisits gs)) := by
  intro xs
  induction xs with
  | nil =>
    intro gs hl _ s st _ hs
    cases gs with
    | nil => exact ⟨0, st, fun _ _ => rfl, by simp [glines], hs⟩
    | cons g gs => simp at hl
  | cons x xs ih =>
    intro gs hl hstep s st ho hs
    cases gs with
    | nil => simp at hl
    | cons g gs =>
      obtain ⟨b, t⟩ := g
      simp only [gvisits, once_append] at ho
      obtain ⟨k1, st1, h1, hb1, hs1⟩ := hstep 0 x b t rfl rfl s (st.add (pad d)) ho.1 hs
      obtain ⟨k2, st2, h2, hb2, hs2⟩ := ih gs (by simpa using hl)
        (fun i y b' t' hy ht => hstep (i + 1) y b' t' (by simpa using hy) (by simpa using ht))
        (after s (visits t)) (st1.add (if xs.isEmpty then lit "\n" else lit ",\n")) ho.2 hs1
      refine ⟨k1 + k2, st2, fun k' hk => ?_, ?_, ?_⟩
      · rw [loop, h1 k' (by omega)]
        exact h2 k' (by omega)
      · have hlen : xs.isEmpty = gs.isEmpty := by
          cases xs <;> cases gs <;> simp at hl ⊢
        rw [hb2, St.add, sep_eq]
        simp only [hb1, St.add, glines, pad_eq, hlen, List.append_assoc]
      · simp only [gvisits, after_append]
        exact hs2

theorem numbers_complete (d : Nat) : ∀ (fs : List (Bytes × Num)) (st : St),
    ∃ st', loop (fun (f : Bytes × Num) st => .ok ((st.add (f.1 ++ lit " => ")).add (showNum f.2))) d fs st = .ok st' ∧
      st'.buf = st.buf ++ numberLines d fs ∧ st'.seen = st.seen := by
  intro fs
  induction fs with
  | nil => intro st; exact ⟨st, rfl, by simp [numberLines], rfl⟩
  | cons f fs ih =>
    intro st
    obtain ⟨n, x⟩ := f
    obtain ⟨st', h, hb, hs⟩ := ih ((((st.add (pad d)).add (n ++ lit " => ")).add (showNum x)).add (if fs.isEmpty then lit "\n" else lit ",\n"))
    refine ⟨st', h, ?_, hs⟩
    rw [hb]
    simp only [St.add, numberLines, sep_eq, pad_eq, showNum_eq, List.append_assoc]
    rfl

theorem showMul_complete (p : Nat → Bytes) (d : Nat) (fs : List (Bytes × Num)) (st : St) :
    ∃ st', showMul d fs st = .ok st' ∧ st'.buf = st.buf ++ [] ++ pretty p (d + 1) (.tuple fs) ∧ st'.seen = st.seen := by
  obtain ⟨st', h, hb, hs⟩ := numbers_complete (d + 2) fs (st.add (lit "{\n"))
  refine ⟨st'.add (lit "  }"), ?_, ?_, hs⟩
  · unfold showMul
    rw [h]
    rfl
  · simp only [St.add, hb, pretty, List.append_nil, List.append_assoc]
    rfl

theorem arrEnd_buf (p : Nat → Bytes) (d : Nat) (elem : Bytes) (dim a : Nat) (st : St) :
    (arrEnd p d elem dim a st).buf = st.buf ++ indent d ++ text "] : " ++ arrayType elem dim ++ text "(" ++ p a ++ text ")" := by
  have h : lit "]" ++ lit " : " = text "] : " := by decide +kernel
  simp only [arrEnd, St.add, pad_eq, h, arrayType, List.append_assoc]
  rfl

theorem inst_text (c : Bytes) (pa : Bytes) : c ++ (lit " (" ++ pa ++ lit ") ") ++ lit "{\n" = c ++ text " (" ++ pa ++ text ") {\n" := by
  have h : text ") {\n" = lit ") " ++ lit "{\n" := by decide +kernel
  rw [h]
  simp only [List.append_assoc]
  rfl

theorem even_noWeaken {H : Heap} (hev : ∀ a, (H a).isSome = true → a % 2 = 0) {a : Nat} {o} (h : H a = some o) : noWeaken a = a := by
  have := hev a (by rw [h]; rfl)
  unfold noWeaken; omega

theorem complete (p : Nat → Bytes) (hp : ∀ a b, p a = p b → a = b) (H : Heap) (hev : ∀ a, (H a).isSome = true → a % 2 = 0)
    {a : Nat} {t : Tree} (h : Depicts H a t) : ∀ d s st, Once s (visits t) → SeenBy p st s →
    ∃ k st', (∀ k', k ≤ k' → dumpRec p H k' a d st = .ok st') ∧ Good p d s st st' [] t := by
  induction h with
  | undef =>
    intro d s st _ hs
    refine ⟨1, st.add (lit "undef"), fun k' hk => ?_, ?_, ?_⟩
    · obtain ⟨k, rfl⟩ : ∃ k, k' = k + 1 := ⟨k' - 1, by omega⟩
      rw [dumpRec, if_pos rfl]
    · simp only [St.add, pretty, List.append_nil]; rfl
    · simp only [visits, after_nil]; exact hs
  | @str a s' e ha hH hsh =>
    intro d s st _ hs
    have := strLoop_shown hsh [] (s'.length + 1) (st.buf ++ [34]) (by omega)
    simp only [List.nil_append, List.length_nil] at this
    refine ⟨1, { st with buf := (st.buf ++ [34] ++ e) ++ [34] }, fun k' hk => ?_, ?_, ?_⟩
    · obtain ⟨k, rfl⟩ : ∃ k, k' = k + 1 := ⟨k' - 1, by omega⟩
      rw [dumpRec, if_neg ha, hH]
      simp only [this, Out.ok_bind, Out.pure_eq]
    · have h : text "\"" = [34] := by decide +kernel
      simp only [pretty, h, List.append_nil, List.append_assoc]
    · simp only [visits, after_nil]; exact hs
  | @nums a elem els ha hH =>
    intro d s st ho hs
    simp only [visits] at ho
    rw [visitsL_eq] at ho
    obtain ⟨k, st', h1, hb, hs'⟩ := loop_complete p (d + 1) (fun _ n st => .ok (st.add (showNum n))) els
      ((els.map Tree.num).map (fun t => ([], t))) (by simp) (by
        intro i x b t hx ht s st _ hs
        rw [List.getElem?_map, List.getElem?_map, hx] at ht
        simp only [Option.map_some, Option.some.injEq, Prod.mk.injEq] at ht
        obtain ⟨rfl, rfl⟩ := ht
        exact ⟨0, _, fun _ _ => rfl, by simp only [St.add, pretty, showNum_eq, List.append_nil], by simp only [visits, after_nil]; exact hs⟩)
      s (st.add (lit "[\n")) ho hs
    refine ⟨k + 1, arrEnd p d elem 1 a st', fun k' hk => ?_, ?_, ?_⟩
    · obtain ⟨j, rfl⟩ : ∃ j, k' = j + 1 := ⟨k' - 1, by omega⟩
      rw [dumpRec, if_neg ha, hH]
      simp only [h1 j (by omega), Out.ok_bind, Out.pure_eq]
    · rw [arrEnd_buf, hb]
      simp only [St.add, pretty, lines_eq, List.append_nil, List.append_assoc]
      rfl
    · simp only [visits, visitsL_eq]
      exact hs'
  | @muls a elem els ha hH =>
    intro d s st ho hs
    simp only [visits] at ho
    rw [visitsL_eq] at ho
    obtain ⟨k, st', h1, hb, hs'⟩ := loop_complete p (d + 1) (fun _ => showMul d) els
      ((els.map Tree.tuple).map (fun t => ([], t))) (by simp) (by
        intro i x b t hx ht s st _ hs
        rw [List.getElem?_map, List.getElem?_map, hx] at ht
        simp only [Option.map_some, Option.some.injEq, Prod.mk.injEq] at ht
        obtain ⟨rfl, rfl⟩ := ht
        obtain ⟨st', h, hb, hse⟩ := showMul_complete p d x st
        refine ⟨0, st', fun _ _ => h, hb, ?_⟩
        simp only [visits, after_nil]
        unfold SeenBy
        rw [hse]
        exact hs)
      s (st.add (lit "[\n")) ho hs
    refine ⟨k + 1, arrEnd p d elem 1 a st', fun k' hk => ?_, ?_, ?_⟩
    · obtain ⟨j, rfl⟩ : ∃ j, k' = j + 1 := ⟨k' - 1, by omega⟩
      rw [dumpRec, if_neg ha, hH]
      simp only [h1 j (by omega), Out.ok_bind, Out.pure_eq]
    · rw [arrEnd_buf, hb]
      simp only [St.add, pretty, lines_eq, List.append_nil, List.append_assoc]
      rfl
    · simp only [visits, visitsL_eq]
      exact hs'
  | @objs a elem dim els ts ha hH hl _ ih =>
    intro d s st ho hs
    simp only [visits] at ho
    rw [visitsL_eq] at ho
    obtain ⟨k, st', h1, hb, hs'⟩ := loop_complete p (d + 1) (fun k w st => dumpRec p H k (noWeaken w) (d + 1) st) els
      (ts.map (fun t => ([], t))) (by simpa using hl) (by
        intro i x b t hx ht s st ho hs
        rw [List.getElem?_map] at ht
        cases hti : ts[i]? with
        | none => rw [hti] at ht; cases ht
        | some t' =>
          rw [hti] at ht
          simp only [Option.map_some, Option.some.injEq, Prod.mk.injEq] at ht
          obtain ⟨rfl, rfl⟩ := ht
          rw [noWeaken_eq]
          exact ih i x t' hx hti (d + 1) s st ho hs)
      s (st.add (lit "[\n")) ho hs
    refine ⟨k + 1, arrEnd p d elem dim a st', fun k' hk => ?_, ?_, ?_⟩
    · obtain ⟨j, rfl⟩ : ∃ j, k' = j + 1 := ⟨k' - 1, by omega⟩
      rw [dumpRec, if_neg ha, hH]
      simp only [h1 j (by omega), Out.ok_bind, Out.pure_eq]
    · rw [arrEnd_buf, hb]
      simp only [St.add, pretty, lines_eq, List.append_nil, List.append_assoc]
      rfl
    · simp only [visits, visitsL_eq]
      exact hs'
  | @obj a cls fields ts ha hH hn hnum _ ih =>
    intro d s st ho hs
    simp only [visits, Once] at ho
    rw [visitsF_eq] at ho
    have hns : st.seen.contains (p a) = false := by
      cases hc : st.seen.contains (p a) with
      | false => rfl
      | true => exact absurd ((hs a).1 hc) (ho.1.1 trivial)
    have hseen : SeenBy p (((({ st with seen := p a :: st.seen } : St).add cls).add (lit " (" ++ p a ++ lit ") ")).add (lit "{\n")) (a :: s) := by
      intro b
      simp only [St.add, List.contains_cons, Bool.or_eq_true, hs b, List.mem_cons]
      constructor
      · rintro (h | h)
        · exact .inl (hp _ _ (by simpa using h))
        · exact .inr h
      · rintro (rfl | h)
        · exact .inl (by simp)
        · exact .inr h
    have hlen : ts.length = fields.length := by
      have := congrArg List.length hn
      simpa using this
    obtain ⟨k, st', h1, hb, hs'⟩ := loop_complete p (d + 1) (fun k => showField (fun a st => dumpRec p H k a (d + 1) st)) fields
      (ts.map (fun f => (f.1 ++ text " => ", f.2))) (by simpa using hlen) (by
        intro i x b t hx ht s st ho hs
        rw [List.getElem?_map] at ht
        cases hti : ts[i]? with
        | none => rw [hti] at ht; cases ht
        | some nt =>
          obtain ⟨nm, t'⟩ := nt
          rw [hti] at ht
          simp only [Option.map_some, Option.some.injEq, Prod.mk.injEq] at ht
          obtain ⟨rfl, rfl⟩ := ht
          obtain ⟨nm', v⟩ := x
          have hnm : nm = nm' := by
            have := congrArg (·[i]?) hn
            simp only [List.getElem?_map, hti, hx, Option.map_some, Option.some.injEq] at this
            exact this
          subst hnm
          cases v with
          | num n =>
            have := hnum i nm n t' hx hti
            subst this
            refine ⟨0, _, fun _ _ => rfl, ?_, by simp only [visits, after_nil]; exact hs⟩
            simp only [St.add, pretty, showNum_eq, List.append_assoc]
            rfl
          | ref w =>
            obtain ⟨k, st', h1, hb, hs'⟩ := ih i nm w t' hx hti (d + 1) s ((st.add nm).add (lit " => ")) ho hs
            refine ⟨k, st', fun k' hk => ?_, ?_, hs'⟩
            · simp only [showField, noWeaken_eq]
              exact h1 k' hk
            · rw [hb]
              simp only [St.add, List.append_nil, List.append_assoc]
              rfl)
      (a :: s) _ ho.2 hseen
    refine ⟨k + 1, (st'.add (pad d)).add (lit "}"), fun k' hk => ?_, ?_, ?_⟩
    · obtain ⟨j, rfl⟩ : ∃ j, k' = j + 1 := ⟨k' - 1, by omega⟩
      rw [dumpRec, if_neg ha, hH]
      simp only [even_noWeaken hev hH, hns, Bool.false_eq_true, if_false]
      simp only [h1 j (by omega), Out.ok_bind, Out.pure_eq]
    · have := inst_text cls (p a)
      simp only [St.add, hb, pretty, pad_eq, fieldLines_eq, List.append_nil]
      rw [List.append_assoc st.buf, List.append_assoc st.buf, this]
      simp only [List.append_assoc]
      rfl
    · simp only [visits, visitsF_eq, after_cons]
      exact hs'
  | @reuse a cls fields ha hH =>
    intro d s st ho hs
    simp only [visits, Once, Bool.false_eq_true, false_iff, Classical.not_not, and_true] at ho
    have hc := (hs a).2 ho
    refine ⟨1, st.add (lit "REUSE_OBJECT(" ++ p a ++ lit ")"), fun k' hk => ?_, ?_, ?_⟩
    · obtain ⟨k, rfl⟩ : ∃ k, k' = k + 1 := ⟨k' - 1, by omega⟩
      rw [dumpRec, if_neg ha, hH]
      simp only [even_noWeaken hev hH, hc, if_true]
    · simp only [St.add, pretty, List.append_nil]; rfl
    · intro b
      simp only [visits, after_cons, after_nil, List.mem_cons]
      rw [show (st.add _).seen = st.seen from rfl, hs b]
      constructor
      · exact .inr
      · rintro (rfl | h)
        · exact ho
        · exact h

end Dump
end SPVM
