import Verif.Spec.LookSame
import Verif.Props.VisitorsTold
import Verif.Props.RustTypes
import Verif.Props.Related

/-! # C80: what no type can tell apart -/

set_option autoImplicit false

namespace Nrbf.Visitors

open Spec

/-! ## Runs over parts that give the same results -/

section
variable [Platform] [FloatLib] [TextLib]

/-- Whatever a type makes of the first value, it makes of the second. -/
def Transfers (v v' : Value) : Prop :=
  ∀ {ι α : Type} (impls : ι → Impl ι α) (i : ι) (r : Res α), Deserialize impls v i r → Deserialize impls v' i r

/-- Lists of such values. -/
inductive AllTransfer : List Value → List Value → Prop
  | nil : AllTransfer [] []
  | cons {v v' vs vs'} : Transfers v v' → AllTransfer vs vs' → AllTransfer (v :: vs) (v' :: vs')

/-- Lists of members with the same names and such values. -/
inductive MembersTransfer : List (Str × Value) → List (Str × Value) → Prop
  | nil : MembersTransfer [] []
  | cons {k v v' ms ms'} : Transfers v v' → MembersTransfer ms ms' → MembersTransfer ((k, v) :: ms) ((k, v') :: ms')

theorem AllTransfer.length {vs vs' : List Value} (h : AllTransfer vs vs') : vs.length = vs'.length := by
  induction h with
  | nil => rfl
  | cons _ _ ih => simp [ih]

theorem MembersTransfer.length {ms ms' : List (Str × Value)} (h : MembersTransfer ms ms') : ms.length = ms'.length := by
  induction h with
  | nil => rfl
  | cons _ _ ih => simp [ih]

theorem allTransfer_of {vs vs' : List Value} (hl : vs.length = vs'.length) (h : ∀ p ∈ vs.zip vs', Transfers p.1 p.2) :
    AllTransfer vs vs' := by
  induction vs generalizing vs' with
  | nil => cases vs' with
    | nil => exact .nil
    | cons => cases hl
  | cons v vs ih => cases vs' with
    | nil => cases hl
    | cons v' vs' =>
      exact .cons (h (v, v') List.mem_cons_self) (ih (by simpa using hl) fun p hp => h p (List.mem_cons_of_mem _ hp))

theorem membersTransfer_of {ms ms' : List (Str × Value)} (hl : ms.map Prod.fst = ms'.map Prod.fst)
    (h : ∀ p ∈ ms.zip ms', Transfers p.1.2 p.2.2) : MembersTransfer ms ms' := by
  induction ms generalizing ms' with
  | nil => cases ms' with
    | nil => exact .nil
    | cons => cases hl
  | cons m ms ih => cases ms' with
    | nil => cases hl
    | cons m' ms' =>
      obtain ⟨k, v⟩ := m
      obtain ⟨k', v'⟩ := m'
      simp only [List.map_cons, List.cons.injEq] at hl
      obtain ⟨rfl, hl⟩ := hl
      exact .cons (h ((k, v), (k, v')) List.mem_cons_self) (ih hl fun p hp => h p (List.mem_cons_of_mem _ hp))

variable {ι α : Type} {impls : ι → Impl ι α}

theorem arrayRun_transfer : ∀ {seq vs n h r rest count}, ArrayRun impls seq vs n h r rest count → ∀ vs', AllTransfer vs vs' →
    ∃ rest', rest'.length = rest.length ∧ ArrayRun impls seq vs' n h r rest' count
  | _, _, _, _, _, _, _, .finish h, vs', ha => ⟨vs', ha.length.symm, .finish h⟩
  | _, _, _, _, _, _, _, .element h hd g, vs', ha => by
    have ih := arrayRun_transfer g
    cases ha with
    | cons ht ha =>
      obtain ⟨rest', hl, hr⟩ := ih _ ha
      exact ⟨rest', hl, .element h (ht impls _ _ hd) hr⟩
  | _, _, _, _, _, _, _, .exhausted h g, vs', ha => by
    have ih := arrayRun_transfer g
    cases ha with
    | nil =>
      obtain ⟨rest', hl, hr⟩ := ih _ .nil
      exact ⟨rest', hl, .exhausted h hr⟩

theorem listRun_transfer : ∀ {size seq vs n h r count}, ListRun impls size seq vs n h r count → ∀ vs', AllTransfer vs vs' →
    ListRun impls size seq vs' n h r count
  | _, _, _, _, _, _, _, .finish h, vs', _ => .finish h
  | _, _, _, _, _, _, _, .element h hn hd g, vs', ha => by
    have ih := listRun_transfer g
    cases ha with
    | cons ht ha => exact .element h hn (ht impls _ _ hd) (ih _ ha)
  | _, _, _, _, _, _, _, .error h hn hd g, vs', ha => by
    have ih := listRun_transfer g
    cases ha with
    | cons ht ha => exact .error h hn (ht impls _ _ hd) (ih _ ha)
  | _, _, _, _, _, _, _, .exhausted h hn g, vs', ha => by
    have ih := listRun_transfer g
    cases ha with
    | nil => exact .exhausted h hn (ih _ .nil)
  | _, _, _, _, _, _, _, .full h hn g, vs', ha => .full h hn (listRun_transfer g vs' ha)

theorem mapRun_transfer : ∀ {scalar map ms p n h r rest count}, MapRun impls scalar map ms p n h r rest count →
    ∀ ms' p', MembersTransfer ms ms' → Option.Rel Transfers p p' →
      ∃ rest', rest'.length = rest.length ∧ MapRun impls scalar map ms' p' n h r rest' count
  | _, _, _, _, _, _, _, _, _, .finish h, ms', _, ha, _ => ⟨ms', ha.length.symm, .finish h⟩
  | _, _, _, _, _, _, _, _, _, .key h g, ms', p', ha, hp => by
    have ih := mapRun_transfer g
    cases ha with
    | cons ht ha =>
      obtain ⟨rest', hl, hr⟩ := ih _ _ ha (.some ht)
      exact ⟨rest', hl, .key h hr⟩
  | _, _, _, _, _, _, _, _, _, .exhausted h g, ms', p', ha, hp => by
    have ih := mapRun_transfer g
    cases ha with
    | nil =>
      obtain ⟨rest', hl, hr⟩ := ih _ _ .nil hp
      exact ⟨rest', hl, .exhausted h hr⟩
  | _, _, _, _, _, _, _, _, _, .value h hd g, ms', p', ha, hp => by
    have ih := mapRun_transfer g
    cases hp with
    | some ht =>
      obtain ⟨rest', hl, hr⟩ := ih _ _ ha .none
      exact ⟨rest', hl, .value h (ht impls _ _ hd) hr⟩

theorem visitMap_transfer {scalar : Str → Scalar} {ms ms' : List (Str × Value)} {V : Visitor ι α} {r : Res α}
    (ha : MembersTransfer ms ms') (h : VisitMap impls scalar ms V r) : VisitMap impls scalar ms' V r := by
  cases h with
  | mk h =>
    rename_i r0 rest count
    rw [ha.length] at h
    obtain ⟨rest', hl, hr⟩ := mapRun_transfer h _ _ ha .none
    rw [← hl]
    exact .mk hr

/-! ## Values -/

mutual
theorem deserialize_transfer {v v' : Value} (hnull : v = .null ↔ v' = .null)
    (hany : ∀ V r, VisitAny impls v V r → VisitAny impls v' V r)
    (hstruct : ∀ V r, Visit impls v .struct V r → Visit impls v' .struct V r) :
    ∀ {u i r}, Deserialize impls u i r → u = v → Deserialize impls v' i r
  | _, _, _, .ignore h, _ => .ignore h
  | _, _, _, .call h g, e => .call h (visit_transfer hnull hany hstruct g e)
termination_by structural x0 x1 x2 h => h
theorem visit_transfer {v v' : Value} (hnull : v = .null ↔ v' = .null)
    (hany : ∀ V r, VisitAny impls v V r → VisitAny impls v' V r)
    (hstruct : ∀ V r, Visit impls v .struct V r → Visit impls v' .struct V r) :
    ∀ {u m V r}, Visit impls u m V r → u = v → Visit impls v' m V r
  | _, _, _, _, .none, e => by
    rw [hnull.mp e.symm]
    exact .none
  | _, _, _, _, .some hn g, e => .some (fun h => hn (e.trans (hnull.mpr h))) (visitSome_transfer hnull hany hstruct g e)
  | _, _, _, _, .structObject g, e => hstruct _ _ (e ▸ .structObject g)
  | _, _, _, _, .struct hn g, e => hstruct _ _ (e ▸ .struct hn g)
  | _, _, _, _, .any h1 h2 g, e => .any h1 h2 (hany _ _ (e ▸ g))
termination_by structural x0 x1 x2 x3 h => h
theorem visitSome_transfer {v v' : Value} (hnull : v = .null ↔ v' = .null)
    (hany : ∀ V r, VisitAny impls v V r → VisitAny impls v' V r)
    (hstruct : ∀ V r, Visit impls v .struct V r → Visit impls v' .struct V r) :
    ∀ {u a r}, VisitSome impls u a r → u = v → VisitSome impls v' a r
  | _, _, _, .deserialize g, e => .deserialize (deserialize_transfer hnull hany hstruct g e)
  | _, _, _, .finish, _ => .finish
termination_by structural x0 x1 x2 h => h
end

/-! ## Values that look the same -/

omit [Platform] [FloatLib] [TextLib] in
theorem zip_turn {β γ : Type} {xs : List β} {ys : List γ} {x : β} {y : γ} (h : (y, x) ∈ ys.zip xs) : (x, y) ∈ xs.zip ys := by
  induction xs generalizing ys with
  | nil => simp at h
  | cons a xs ih => cases ys with
    | nil => simp at h
    | cons b ys =>
      simp only [List.zip_cons_cons, List.mem_cons, Prod.mk.injEq] at h ⊢
      rcases h with ⟨h1, h2⟩ | h
      · exact .inl ⟨h2, h1⟩
      · exact .inr (ih h)

omit [FloatLib] [TextLib] in
theorem LookSame.symm : ∀ {v v' : Value}, LookSame v v' → LookSame v' v
  | _, _, .scalar h h' => .scalar h' h
  | _, _, .array hl h => .array hl.symm fun p hp => LookSame.symm (h (p.2, p.1) (zip_turn hp))
  | _, _, .object hc hm h => .object (by
      rcases hc with ⟨h1, h2⟩ | ⟨h1, h2, h3⟩
      · exact .inl ⟨h2, h1⟩
      · exact .inr ⟨h2, h1, h3.symm⟩) hm.symm fun p hp => LookSame.symm (h (p.2, p.1) (zip_turn hp))

theorem boxedCall_same {e : Str} {T : RTy} {f : Dyn → Option Scalar} {ms ms' : List (Str × Value)} (h : MembersTransfer ms ms') :
    boxedCall e T f ms = boxedCall e T f ms' := by
  have h1 := (C76_boxed e T ms _).mpr rfl
  have h2 := (C76_boxed e T ms' _).mp (visitMap_transfer h h1)
  unfold boxedCall
  generalize unboxR e T (ms.map fun m => (m.1, decodeR m.2)) = x at h2
  generalize unboxR e T (ms'.map fun m => (m.1, decodeR m.2)) = y at h2
  cases x <;> cases y <;> simp_all [asText]

/-- Objects of the same system class are treated the same, but for lists. -/
theorem objectCall_same {cls cls' : Str} {ms ms' : List (Str × Value)} (hb : cls.takeWhile (· ≠ 96) = cls'.takeWhile (· ≠ 96))
    (h : MembersTransfer ms ms') : objectCall cls none ms = objectCall cls' none ms' ∨
      cls.takeWhile (· ≠ 96) = lit "System.Collections.Generic.List" := by
  have hb' : classBase cls = classBase cls' := hb
  by_cases hl : classBase cls = lit "System.Collections.Generic.List"
  · exact .inr hl
  · left
    unfold objectCall
    simp only [boxedCall_same h, ← hb']
    rw [if_neg hl, if_neg hl]

theorem objectCall_listOf {cls : Str} {ms : List (Str × Value)} (hb : cls.takeWhile (· ≠ 96) = lit "System.Collections.Generic.List") :
    objectCall cls none ms = match listOf ms with
      | some (items, size) => .list items (asUsize size)
      | none => .fail (lit "invalid system class: " ++ lit "System.Collections.Generic.List") := by
  have hb' : classBase cls = lit "System.Collections.Generic.List" := hb
  unfold objectCall
  simp only [hb']
  rfl

omit [FloatLib] [TextLib] in
theorem get?_same {ms ms' : List (Str × Value)} (hm : ms.map Prod.fst = ms'.map Prod.fst)
    (h : ∀ p ∈ ms.zip ms', LookSame p.1.2 p.2.2) {k : Str} {v : Value} (hv : AMap.get? ms k = some v) :
    ∃ v', AMap.get? ms' k = some v' ∧ LookSame v v' := by
  induction ms generalizing ms' with
  | nil => cases hv
  | cons m ms ih => cases ms' with
    | nil => cases hm
    | cons m' ms' =>
      obtain ⟨n, w⟩ := m
      obtain ⟨n', w'⟩ := m'
      simp only [List.map_cons, List.cons.injEq] at hm
      obtain ⟨rfl, hm⟩ := hm
      by_cases hk : n = k
      · subst hk
        simp [AMap.get?] at hv ⊢
        exact hv ▸ h ((n, w), (n, w')) List.mem_cons_self
      · simp [AMap.get?, hk] at hv ⊢
        simpa [AMap.get?] using ih hm (fun p hp => h p (List.mem_cons_of_mem _ hp)) (by simpa [AMap.get?] using hv)

omit [FloatLib] [TextLib] in
theorem lookSame_int32 {n : Int} {v : Value} (h : LookSame (.int32 n) v) : v = .int32 n := by
  cases h with
  | scalar h h' =>
    cases h
    cases h'
    rfl

omit [FloatLib] [TextLib] in
theorem lookSame_array {vs : List Value} {v : Value} (h : LookSame (.array vs) v) :
    ∃ vs', v = .array vs' ∧ vs.length = vs'.length ∧ ∀ p ∈ vs.zip vs', LookSame p.1 p.2 := by
  cases h with
  | scalar h h' => cases h
  | array hl h => exact ⟨_, rfl, hl, h⟩

omit [FloatLib] [TextLib] in
theorem listOf_same {ms ms' : List (Str × Value)} (hm : ms.map Prod.fst = ms'.map Prod.fst)
    (h : ∀ p ∈ ms.zip ms', LookSame p.1.2 p.2.2) {items : List Value} {size : Int} (hl : listOf ms = some (items, size)) :
    ∃ items', listOf ms' = some (items', size) ∧ items.length = items'.length ∧ ∀ p ∈ items.zip items', LookSame p.1 p.2 := by
  unfold listOf at hl
  split at hl
  · rename_i h3
    split at hl
    · rename_i e1 e2 e3
      cases hl
      obtain ⟨v1, g1, s1⟩ := get?_same hm h e1
      obtain ⟨v2, g2, s2⟩ := get?_same hm h e2
      obtain ⟨v3, g3, s3⟩ := get?_same hm h e3
      obtain ⟨vs', rfl, hvl, hvs⟩ := lookSame_array s1
      cases lookSame_int32 s2
      cases lookSame_int32 s3
      refine ⟨vs', ?_, hvl, hvs⟩
      have h3' : ms'.length = 3 := by
        have := congrArg List.length hm
        simp only [List.length_map] at this
        omega
      unfold listOf
      rw [if_pos h3', g1, g2, g3]
    · cases hl
  · cases hl

omit [Platform] [FloatLib] [TextLib] in
theorem get?_size {ms : List (Str × Value)} {k : Str} {v : Value} (h : AMap.get? ms k = some v) : sizeOf v < sizeOf ms := by
  have := List.sizeOf_lt_of_mem (get?_in h)
  simp only [Prod.mk.sizeOf_spec] at this
  omega

omit [Platform] [FloatLib] [TextLib] in
theorem listOf_size {ms : List (Str × Value)} {items : List Value} {size : Int} (hl : listOf ms = some (items, size)) :
    sizeOf items < sizeOf ms := by
  unfold listOf at hl
  split at hl
  · split at hl
    · rename_i e1 e2 e3
      cases hl
      have := get?_size e1
      simp only [Value.array.sizeOf_spec] at this
      omega
    · cases hl
  · cases hl

/-- Whatever visitors make of the first value, they make of the second. -/
structure Interchanges (v v' : Value) : Prop where
  null : v = .null ↔ v' = .null
  any : ∀ (ι α : Type) (impls : ι → Impl ι α) (V : Visitor ι α) (r : Res α), VisitAny impls v V r → VisitAny impls v' V r
  struct : ∀ (ι α : Type) (impls : ι → Impl ι α) (V : Visitor ι α) (r : Res α), Visit impls v .struct V r → Visit impls v' .struct V r

theorem Interchanges.transfers {v v' : Value} (h : Interchanges v v') : Transfers v v' := fun impls _ _ hr =>
  deserialize_transfer h.null (h.any _ _ impls) (h.struct _ _ impls) hr rfl

theorem interchanges_of : ∀ (n : Nat) {v v' : Value}, sizeOf v < n → LookSame v v' → Interchanges v v'
  | 0, _, _, hn, _ => absurd hn (Nat.not_lt_zero _)
  | n + 1, v, v', hn, h => by
    cases h with
    | @scalar _ _ s h h' =>
      have hnull : ∀ {u : Value}, Says u s → (u = .null ↔ s = .unit) := by
        intro u hu
        constructor
        · rintro rfl; cases hu; rfl
        · rintro rfl; cases hu; rfl
      have hany : ∀ (ι α : Type) (impls : ι → Impl ι α) (V : Visitor ι α) (r : Res α), VisitAny impls v V r → VisitAny impls v' V r := by
        intro ι α impls V r hv
        have := (C74_scalar (m := .any) h (by decide)).mp (.any (by decide) (by decide) hv)
        subst this
        exact .scalar (says_iff.mp h')
      refine ⟨((hnull h).trans (hnull h').symm), hany, ?_⟩
      intro ι α impls V r hv
      have := (C74_scalar h (by decide)).mp hv
      exact (C74_scalar h' (by decide)).mpr this
    | @array vs vs' hl h =>
      have ha : AllTransfer vs vs' := allTransfer_of hl fun p hp =>
        (interchanges_of n (by
          have := List.sizeOf_lt_of_mem (List.of_mem_zip (show (p.1, p.2) ∈ vs.zip vs' from hp)).1
          simp only [Value.array.sizeOf_spec] at hn
          omega) (h p hp)).transfers
      have hany : ∀ (ι α : Type) (impls : ι → Impl ι α) (V : Visitor ι α) (r : Res α), VisitAny impls (.array vs) V r → VisitAny impls (.array vs') V r := by
        intro ι α impls V r hv
        cases hv with
        | scalar h => cases h
        | array g =>
          obtain ⟨rest', hl, g'⟩ := arrayRun_transfer g _ ha
          rw [← hl]
          exact .array g'
      refine ⟨(by simp), hany, ?_⟩
      intro ι α impls V r hv
      cases hv with
      | struct _ hv => exact .struct (by intro _ _ _ e; cases e) (hany _ _ _ _ _ hv)
      | any _ hs _ => exact absurd rfl hs
    | @object cls cls' lib lib' ms ms' hc hm h =>
      have hlt : sizeOf ms < n := by
        simp only [Value.object.sizeOf_spec] at hn
        omega
      have ha : MembersTransfer ms ms' := membersTransfer_of hm fun p hp =>
        (interchanges_of n (by
          have := List.sizeOf_lt_of_mem (List.of_mem_zip (show (p.1, p.2) ∈ ms.zip ms' from hp)).1
          have h2 : sizeOf p.1 = 1 + sizeOf p.1.1 + sizeOf p.1.2 := by
            obtain ⟨⟨_, _⟩, _⟩ := p
            rfl
          omega) (h p hp)).transfers
      have same : objectCall cls lib ms = objectCall cls' lib' ms' → (∀ items size, objectCall cls lib ms ≠ .list items size) →
          ∀ (ι α : Type) (impls : ι → Impl ι α) (V : Visitor ι α) (r : Res α), VisitAny impls (.object cls lib ms) V r → VisitAny impls (.object cls' lib' ms') V r := by
        intro e hno ι α impls V r hv
        cases hv with
        | scalar h => cases h
        | object ho g => exact .object (e ▸ ho) (visitMap_transfer ha g)
        | boxed ho => exact .boxed (e ▸ ho)
        | fail ho => exact .fail (e ▸ ho)
        | list ho _ => exact absurd ho (hno _ _)
      have hany : ∀ (ι α : Type) (impls : ι → Impl ι α) (V : Visitor ι α) (r : Res α), VisitAny impls (.object cls lib ms) V r → VisitAny impls (.object cls' lib' ms') V r := by
        rcases hc with ⟨h1, h2⟩ | ⟨rfl, rfl, hb⟩
        · exact same (by rw [objectCall_plain ms h1, objectCall_plain ms' h2]) (by intro _ _; rw [objectCall_plain ms h1]; simp)
        · by_cases hlist : cls.takeWhile (· ≠ 96) = lit "System.Collections.Generic.List"
          · have o1 := objectCall_listOf (ms := ms) hlist
            have o2 := objectCall_listOf (ms := ms') (hb ▸ hlist)
            cases hl : listOf ms with
            | none =>
              have hl' : listOf ms' = none := by
                cases hl' : listOf ms' with
                | none => rfl
                | some x =>
                  obtain ⟨items, hx, _⟩ := listOf_same hm.symm (fun p hp => (h (p.2, p.1) (zip_turn hp)).symm) hl'
                  rw [hl] at hx
                  cases hx
              rw [hl] at o1
              rw [hl'] at o2
              exact same (o1.trans o2.symm) (by intro _ _; rw [o1]; simp)
            | some x =>
              obtain ⟨items, size⟩ := x
              obtain ⟨items', hl', hlen, hp⟩ := listOf_same hm h hl
              have hi : AllTransfer items items' := allTransfer_of hlen fun p hp' => (interchanges_of n (by
                have h1 := List.sizeOf_lt_of_mem (List.of_mem_zip (show (p.1, p.2) ∈ items.zip items' from hp')).1
                have h2 := listOf_size hl
                omega) (hp p hp')).transfers
              rw [hl] at o1
              rw [hl'] at o2
              intro ι α impls V r hv
              cases hv with
              | scalar h => cases h
              | object ho g => rw [o1] at ho; cases ho
              | boxed ho => rw [o1] at ho; cases ho
              | fail ho => rw [o1] at ho; cases ho
              | list ho g =>
                rw [o1] at ho
                cases ho
                exact .list o2 (listRun_transfer g _ hi)
          · have e := (objectCall_same hb ha).resolve_right hlist
            refine same e ?_
            intro items size ho
            rcases object_kinds cls none ms with hp | ⟨_, c, e, P, hc, hbx⟩ | ⟨items, size, hl⟩ | ⟨_, hc, hl⟩
            · rw [objectCall_plain ms hp] at ho; cases ho
            · obtain ⟨f, ho', _⟩ := objectCall_box hc hbx ms
              rw [ho'] at ho
              unfold boxedCall at ho
              split at ho
              · split at ho <;> cases ho
              · cases ho
            · obtain ⟨_, _, _, e, hc, _⟩ := hl
              cases e
              exact hlist hc
            · exact hlist hc
      refine ⟨(by simp), hany, ?_⟩
      intro ι α impls V r hv
      cases hv with
      | structObject g => exact .structObject (visitMap_transfer ha g)
      | struct hn _ => exact absurd rfl (hn _ _ _)
      | any _ hs _ => exact absurd rfl hs

theorem message_interchanges {m m' : RemotingMessage} (h : MessagesLookSame m m') {i : ι} {r : Res α}
    (hr : DeserializeMessage impls m i r) : DeserializeMessage impls m' i r := by
  cases h with
  | value h =>
    have hi := interchanges_of _ (Nat.lt_succ_self _) h
    cases hr with
    | ignore h => exact .ignore h
    | struct h g => exact .struct h (hi.struct _ _ _ _ _ g)
    | any h hm g => exact .any h hm (hi.any _ _ _ _ _ g)
  | call =>
    cases hr with
    | ignore h => exact .ignore h
    | methodCall h => exact .methodCall h
  | «return» =>
    cases hr with
    | ignore h => exact .ignore h
    | methodReturn h => exact .methodReturn h

omit [FloatLib] [TextLib] in
theorem MessagesLookSame.symm {m m' : RemotingMessage} (h : MessagesLookSame m m') : MessagesLookSame m' m := by
  cases h with
  | value h => exact .value h.symm
  | call => exact .call
  | «return» => exact .return

/-- **C80** (sound) No type makes anything of one value that it does not make of one that looks the same. -/
theorem C80_same {w w' : Bytes} {m m' : RemotingMessage} (hw : deserialize w = .ok m) (hw' : deserialize w' = .ok m')
    (h : MessagesLookSame m m') (i : ι) (r : Res α) : FromSlice impls w i r ↔ FromSlice impls w' i r := by
  have go : ∀ {w w' m m'}, deserialize w = .ok m → deserialize w' = .ok m' → MessagesLookSame m m' → FromSlice impls w i r →
      FromSlice impls w' i r := by
    intro w w' m m' hw hw' h hr
    cases hr with
    | ok hm hr =>
      rw [hw] at hm
      cases hm
      exact .ok hw' (message_interchanges h hr)
    | parsing hm => rw [hw] at hm; cases hm
  exact ⟨go hw hw' h, go hw' hw h.symm⟩

end

end Nrbf.Visitors
