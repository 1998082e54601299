import Verif.Spec.Related
import Verif.Props.VisitorsTold

/-! # C77: types that do the same in different ways get corresponding results -/

set_option autoImplicit false

namespace Nrbf.Visitors

section
variable {ι κ α β : Type} {E : Str → Str → Prop} {R : α → β → Prop}

theorem AllRelated.snoc {h : List (Res (Option α))} {h' : List (Res (Option β))} (hh : AllRelated E R h h') {a : Res (Option α)}
    {b : Res (Option β)} (hab : Related E (Option.Rel R) a b) : AllRelated E R (h ++ [a]) (h' ++ [b]) := by
  induction hh with
  | nil => exact .cons hab .nil
  | cons h1 _ ih => exact .cons h1 ih

theorem Related.map_some {a : Res α} {b : Res β} (h : Related E R a b) : Related E (Option.Rel R) (a.map some) (b.map some) := by
  cases h with
  | ok h => exact .ok (.some h)
  | error h => exact .error h

theorem Related.none : Related E (Option.Rel R) (.ok none) (.ok none) := .ok .none

variable [Platform] [FloatLib] [TextLib] {S : Scalar → Prop} {I : ι → κ → Prop} {impls : ι → Impl ι α} {impls' : κ → Impl κ β}

theorem Related.arrayEnd (hE : ∀ e, E e e) {a : Res α} {b : Res β} (h : Related E R a b) (rest count : Nat) :
    Related E R (arrayEnd a rest count) (arrayEnd b rest count) := by
  cases h with
  | ok h =>
    unfold Nrbf.Visitors.arrayEnd
    by_cases hr : rest = 0
    · simp only [if_pos hr]; exact .ok h
    · simp only [if_neg hr]; exact .error (hE _)
  | error h => exact .error h

theorem Related.listEnd (hE : ∀ e, E e e) {a : Res α} {b : Res β} (h : Related E R a b) (count size : Nat) :
    Related E R (listEnd a count size) (listEnd b count size) := by
  cases h with
  | ok h =>
    unfold Nrbf.Visitors.listEnd
    by_cases hr : count = size
    · simp only [if_pos hr]; exact .ok h
    · simp only [if_neg hr]; exact .error (hE _)
  | error h => exact .error h

theorem Related.mapEnd (hE : ∀ e, E e e) {a : Res α} {b : Res β} (h : Related E R a b) (rest count : Nat) :
    Related E R (mapEnd a rest count) (mapEnd b rest count) := by
  cases h with
  | ok h =>
    unfold Nrbf.Visitors.mapEnd
    by_cases hr : rest = 0
    · simp only [if_pos hr]; exact .ok h
    · simp only [if_neg hr]; exact .error (hE _)
  | error h => exact .error h

omit [Platform] [FloatLib] [TextLib] in
theorem key_related {A : Impl ι α} {B : Impl κ β} (h : ImplRelated S I E R A B) {scalar : Str → Scalar} {k : Str}
    (hs : S (scalar k)) (hk : S (.borrowedStr k)) : Related E R (deserializeKey scalar k A) (deserializeKey scalar k B) := by
  cases h with
  | call hV hf =>
    rename_i m V W f g
    cases m <;> first
      | exact hf _ _ (hV.scalar _ hs)
      | exact hf _ _ (hV.enum _ hk)
  | ignore h => exact h

mutual
theorem related_deserialize (hE : ∀ e, E e e) (hI : ∀ i k, I i k → ImplRelated S I E R (impls i) (impls' k)) :
    ∀ {v i r}, Deserialize impls v i r → ∀ k, I i k → (∀ s, Told v s → S s) → ∃ r', Deserialize impls' v k r' ∧ Related E R r r'
  | _, _, _, .ignore h, k, hk, _ => by
    have := hI _ _ hk
    rw [h] at this
    generalize hB : impls' k = B at this
    cases this with
    | ignore hr => exact ⟨_, .ignore hB, hr⟩
  | _, _, _, .call h g, k, hk, ht => by
    have ih := related_visit hE hI g
    have := hI _ _ hk
    rw [h] at this
    generalize hB : impls' k = B at this
    cases this with
    | call hV hf =>
      obtain ⟨r', h', hr⟩ := ih _ hV ht
      exact ⟨_, .call hB h', hf _ _ hr⟩
termination_by structural x0 x1 x2 h => h

theorem related_visit (hE : ∀ e, E e e) (hI : ∀ i k, I i k → ImplRelated S I E R (impls i) (impls' k)) :
    ∀ {v m V r}, Visit impls v m V r → ∀ W, VisitorRelated S I E R V W → (∀ s, Told v s → S s) →
      ∃ r', Visit impls' v m W r' ∧ Related E R r r'
  | _, _, _, _, .none, W, hW, ht => ⟨_, .none, hW.scalar _ (ht _ .none)⟩
  | _, _, _, _, .some hn g, W, hW, ht => by
    obtain ⟨r', h', hr⟩ := related_visitSome hE hI g _ hW.some ht
    exact ⟨r', .some hn h', hr⟩
  | _, _, _, _, .structObject g, W, hW, ht => by
    obtain ⟨r', h', hr⟩ := related_visitMap hE hI g W hW (fun k v hm => ht _ (.fieldKey hm)) (fun k v hm => ht _ (.key hm))
      (fun k v hm s hs => ht _ (.member hm hs))
    exact ⟨r', .structObject h', hr⟩
  | _, _, _, _, .struct hn g, W, hW, ht => by
    obtain ⟨r', h', hr⟩ := related_visitAny hE hI g W hW ht
    exact ⟨r', .struct hn h', hr⟩
  | _, _, _, _, .any h1 h2 g, W, hW, ht => by
    obtain ⟨r', h', hr⟩ := related_visitAny hE hI g W hW ht
    exact ⟨r', .any h1 h2 h', hr⟩
termination_by structural x0 x1 x2 x3 h => h

theorem related_visitAny (hE : ∀ e, E e e) (hI : ∀ i k, I i k → ImplRelated S I E R (impls i) (impls' k)) :
    ∀ {v V r}, VisitAny impls v V r → ∀ W, VisitorRelated S I E R V W → (∀ s, Told v s → S s) →
      ∃ r', VisitAny impls' v W r' ∧ Related E R r r'
  | _, _, _, .scalar h, W, hW, ht => ⟨_, .scalar h, hW.scalar _ (ht _ (.scalar (says_iff.mpr h)))⟩
  | _, _, _, .array g, W, hW, ht => by
    obtain ⟨r', h', hr⟩ := related_arrayRun hE hI g _ [] hW.seq .nil (fun u hu s hs => ht _ (.element hu hs))
    exact ⟨_, .array h', hr.arrayEnd hE _ _⟩
  | _, _, _, .object h g, W, hW, ht => by
    obtain ⟨r', h', hr⟩ := related_visitMap hE hI g W hW (fun k v hm => ht _ (.key hm)) (fun k v hm => ht _ (.key hm))
      (fun k v hm s hs => ht _ (.member hm hs))
    exact ⟨r', .object h h', hr⟩
  | _, _, _, .boxed h, W, hW, ht => by
    obtain ⟨c, e, P, w, x, u, rfl, hc, hb, rfl, hw, hu, hs⟩ := objectCall_boxed h
    exact ⟨_, .boxed h, hW.scalar _ (ht _ (.boxed hc hb hw hu hs))⟩
  | _, _, _, .fail h, W, hW, ht => ⟨_, .fail h, .error (hE _)⟩
  | _, _, _, .list h g, W, hW, ht => by
    obtain ⟨n, hl, _⟩ := objectCall_list h
    have hl := (listOf_items hl).1
    obtain ⟨r', h', hr⟩ := related_listRun hE hI g _ [] hW.seq .nil
      (fun u hu s hs => ht _ (.member hl (.element hu hs)))
    exact ⟨_, .list h h', hr.listEnd hE _ _⟩
termination_by structural x0 x1 x2 h => h

theorem related_visitSome (hE : ∀ e, E e e) (hI : ∀ i k, I i k → ImplRelated S I E R (impls i) (impls' k)) :
    ∀ {v a r}, VisitSome impls v a r → ∀ b, SomeRelated I E R a b → (∀ s, Told v s → S s) →
      ∃ r', VisitSome impls' v b r' ∧ Related E R r r'
  | _, _, _, .deserialize g, b, hb, ht => by
    have ih := related_deserialize hE hI g
    cases hb with
    | deserialize hk hf =>
      obtain ⟨r', h', hr⟩ := ih _ hk ht
      exact ⟨_, .deserialize h', hf _ _ hr⟩
  | _, _, _, .finish, b, hb, ht => by
    cases hb with
    | finish hr => exact ⟨_, .finish, hr⟩
termination_by structural x0 x1 x2 h => h

theorem related_visitMap (hE : ∀ e, E e e) (hI : ∀ i k, I i k → ImplRelated S I E R (impls i) (impls' k)) :
    ∀ {scalar ms V r}, VisitMap impls scalar ms V r → ∀ W, VisitorRelated S I E R V W →
      (∀ k v, (k, v) ∈ ms → S (scalar k)) → (∀ k v, (k, v) ∈ ms → S (.borrowedStr k)) →
      (∀ k v, (k, v) ∈ ms → ∀ s, Told v s → S s) → ∃ r', VisitMap impls' scalar ms W r' ∧ Related E R r r'
  | _, _, _, _, .mk g, W, hW, h1, h2, h3 => by
    obtain ⟨r', h', hr⟩ := related_mapRun hE hI g _ [] (hW.map _) .nil h1 h2 h3 (fun v e => by cases e)
    exact ⟨_, .mk h', hr.mapEnd hE _ _⟩
termination_by structural x0 x1 x2 x3 h => h

theorem related_arrayRun (hE : ∀ e, E e e) (hI : ∀ i k, I i k → ImplRelated S I E R (impls i) (impls' k)) :
    ∀ {seq vs n h r rest count}, ArrayRun impls seq vs n h r rest count → ∀ seq' h',
      (∀ h h', AllRelated E R h h' → SeqRelated I E R (seq h) (seq' h')) → AllRelated E R h h' →
      (∀ u ∈ vs, ∀ s, Told u s → S s) → ∃ r', ArrayRun impls' seq' vs n h' r' rest count ∧ Related E R r r'
  | _, _, _, _, _, _, _, .finish h, seq', h', hq, hh, ht => by
    have := hq _ _ hh
    rw [h] at this
    generalize hB : seq' h' = B at this
    cases this with
    | finish hr => exact ⟨_, .finish hB, hr⟩
  | _, _, _, _, _, _, _, .element h d g, seq', h', hq, hh, ht => by
    have ihd := related_deserialize hE hI d
    have ih := related_arrayRun hE hI g
    have := hq _ _ hh
    rw [h] at this
    generalize hB : seq' h' = B at this
    cases this with
    | next hk =>
      obtain ⟨a', hd, ha⟩ := ihd _ hk (ht _ (by simp))
      obtain ⟨r', hrun, hr⟩ := ih seq' _ hq (hh.snoc ha.map_some) (fun u hu => ht u (by simp [hu]))
      exact ⟨r', .element hB hd hrun, hr⟩
  | _, _, _, _, _, _, _, .exhausted h g, seq', h', hq, hh, ht => by
    have ih := related_arrayRun hE hI g
    have := hq _ _ hh
    rw [h] at this
    generalize hB : seq' h' = B at this
    cases this with
    | next hk =>
      obtain ⟨r', hrun, hr⟩ := ih seq' _ hq (hh.snoc .none) ht
      exact ⟨r', .exhausted hB hrun, hr⟩
termination_by structural x0 x1 x2 x3 x4 x5 x6 h => h

theorem related_listRun (hE : ∀ e, E e e) (hI : ∀ i k, I i k → ImplRelated S I E R (impls i) (impls' k)) :
    ∀ {size seq vs n h r count}, ListRun impls size seq vs n h r count → ∀ seq' h',
      (∀ h h', AllRelated E R h h' → SeqRelated I E R (seq h) (seq' h')) → AllRelated E R h h' →
      (∀ u ∈ vs, ∀ s, Told u s → S s) → ∃ r', ListRun impls' size seq' vs n h' r' count ∧ Related E R r r'
  | _, _, _, _, _, _, _, .finish h, seq', h', hq, hh, ht => by
    have := hq _ _ hh
    rw [h] at this
    generalize hB : seq' h' = B at this
    cases this with
    | finish hr => exact ⟨_, .finish hB, hr⟩
  | _, _, _, _, _, _, _, .element h hn d g, seq', h', hq, hh, ht => by
    have ihd := related_deserialize hE hI d
    have ih := related_listRun hE hI g
    have := hq _ _ hh
    rw [h] at this
    generalize hB : seq' h' = B at this
    cases this with
    | next hk =>
      obtain ⟨a', hd, ha⟩ := ihd _ hk (ht _ (by simp))
      cases ha with
      | ok ha =>
        obtain ⟨r', hrun, hr⟩ := ih seq' _ hq (hh.snoc (.ok (.some ha))) (fun u hu => ht u (by simp [hu]))
        exact ⟨r', .element hB hn hd hrun, hr⟩
  | _, _, _, _, _, _, _, .error h hn d g, seq', h', hq, hh, ht => by
    have ihd := related_deserialize hE hI d
    have ih := related_listRun hE hI g
    have := hq _ _ hh
    rw [h] at this
    generalize hB : seq' h' = B at this
    cases this with
    | next hk =>
      obtain ⟨a', hd, ha⟩ := ihd _ hk (ht _ (by simp))
      cases ha with
      | error ha =>
        obtain ⟨r', hrun, hr⟩ := ih seq' _ hq (hh.snoc (.error ha)) (fun u hu => ht u (by simp [hu]))
        exact ⟨r', .error hB hn hd hrun, hr⟩
  | _, _, _, _, _, _, _, .exhausted h hn g, seq', h', hq, hh, ht => by
    have ih := related_listRun hE hI g
    have := hq _ _ hh
    rw [h] at this
    generalize hB : seq' h' = B at this
    cases this with
    | next hk =>
      obtain ⟨r', hrun, hr⟩ := ih seq' _ hq (hh.snoc .none) ht
      exact ⟨r', .exhausted hB hn hrun, hr⟩
  | _, _, _, _, _, _, _, .full h hn g, seq', h', hq, hh, ht => by
    have ih := related_listRun hE hI g
    have := hq _ _ hh
    rw [h] at this
    generalize hB : seq' h' = B at this
    cases this with
    | next hk =>
      obtain ⟨r', hrun, hr⟩ := ih seq' _ hq (hh.snoc .none) ht
      exact ⟨r', .full hB hn hrun, hr⟩
termination_by structural x0 x1 x2 x3 x4 x5 x6 h => h

theorem related_mapRun (hE : ∀ e, E e e) (hI : ∀ i k, I i k → ImplRelated S I E R (impls i) (impls' k)) :
    ∀ {scalar map ms p n h r rest count}, MapRun impls scalar map ms p n h r rest count → ∀ map' h',
      (∀ h h', AllRelated E R h h' → MapRelated I E R (map h) (map' h')) → AllRelated E R h h' →
      (∀ k v, (k, v) ∈ ms → S (scalar k)) → (∀ k v, (k, v) ∈ ms → S (.borrowedStr k)) →
      (∀ k v, (k, v) ∈ ms → ∀ s, Told v s → S s) → (∀ v, p = some v → ∀ s, Told v s → S s) →
      ∃ r', MapRun impls' scalar map' ms p n h' r' rest count ∧ Related E R r r'
  | _, _, _, _, _, _, _, _, _, .finish h, map', h', hq, hh, h1, h2, h3, h4 => by
    have := hq _ _ hh
    rw [h] at this
    generalize hB : map' h' = B at this
    cases this with
    | finish hr => exact ⟨_, .finish hB, hr⟩
  | _, _, _, _, _, _, _, _, _, .key h g, map', h', hq, hh, h1, h2, h3, h4 => by
    have ih := related_mapRun hE hI g
    have := hq _ _ hh
    rw [h] at this
    generalize hB : map' h' = B at this
    cases this with
    | key hk =>
      obtain ⟨r', hrun, hr⟩ := ih map' _ hq (hh.snoc (key_related (hI _ _ hk) (h1 _ _ List.mem_cons_self) (h2 _ _ List.mem_cons_self)).map_some)
        (fun k v hm => h1 k v (by simp [hm])) (fun k v hm => h2 k v (by simp [hm])) (fun k v hm => h3 k v (by simp [hm]))
        (fun v e => by cases e; exact h3 _ _ List.mem_cons_self)
      exact ⟨r', .key hB hrun, hr⟩
  | _, _, _, _, _, _, _, _, _, .exhausted h g, map', h', hq, hh, h1, h2, h3, h4 => by
    have ih := related_mapRun hE hI g
    have := hq _ _ hh
    rw [h] at this
    generalize hB : map' h' = B at this
    cases this with
    | key hk =>
      obtain ⟨r', hrun, hr⟩ := ih map' _ hq (hh.snoc .none) h1 h2 h3 h4
      exact ⟨r', .exhausted hB hrun, hr⟩
  | _, _, _, _, _, _, _, _, _, .value h d g, map', h', hq, hh, h1, h2, h3, h4 => by
    have ihd := related_deserialize hE hI d
    have ih := related_mapRun hE hI g
    have := hq _ _ hh
    rw [h] at this
    generalize hB : map' h' = B at this
    cases this with
    | value hk =>
      obtain ⟨a', hd, ha⟩ := ihd _ hk (h4 _ rfl)
      obtain ⟨r', hrun, hr⟩ := ih map' _ hq (hh.snoc ha.map_some) h1 h2 h3 (fun v e => by cases e)
      exact ⟨r', .value hB hd hrun, hr⟩
termination_by structural x0 x1 x2 x3 x4 x5 x6 x7 x8 h => h
end

theorem related_message (hE : ∀ e, E e e) (hI : ∀ i k, I i k → ImplRelated S I E R (impls i) (impls' k)) {m : RemotingMessage}
    {i : ι} {r : Res α} (h : DeserializeMessage impls m i r) {k : κ} (hk : I i k) (ht : ∀ v, m = .value v → ∀ s, Told v s → S s) :
    ∃ r', DeserializeMessage impls' m k r' ∧ Related E R r r' := by
  have hAB := hI _ _ hk
  generalize hB : impls' k = B at hAB
  cases h with
  | ignore h =>
    rw [h] at hAB
    cases hAB with
    | ignore hr => exact ⟨_, .ignore hB, hr⟩
  | methodCall h =>
    rw [h] at hAB
    cases hAB with
    | call hV hf =>
      refine ⟨_, .methodCall hB, hf _ _ ?_⟩
      rw [hV.expecting]
      exact .error (hE _)
  | methodReturn h =>
    rw [h] at hAB
    cases hAB with
    | call hV hf =>
      refine ⟨_, .methodReturn hB, hf _ _ ?_⟩
      rw [hV.expecting]
      exact .error (hE _)
  | struct h g =>
    rw [h] at hAB
    cases hAB with
    | call hV hf =>
      obtain ⟨r', h', hr⟩ := related_visit hE hI g _ hV (ht _ rfl)
      exact ⟨_, .struct hB h', hf _ _ hr⟩
  | any h hm g =>
    rw [h] at hAB
    cases hAB with
    | call hV hf =>
      obtain ⟨r', h', hr⟩ := related_visitAny hE hI g _ hV (ht _ rfl)
      exact ⟨_, .any hB hm h', hf _ _ hr⟩

theorem related_slice (hE : ∀ e, E e e) (hI : ∀ i k, I i k → ImplRelated S I E R (impls i) (impls' k)) {w : Bytes}
    {i : ι} {r : Res α} (h : FromSlice impls w i r) {k : κ} (hk : I i k)
    (ht : ∀ v, deserialize w = .ok (.value v) → ∀ s, Told v s → S s) : ∃ r', FromSlice impls' w k r' ∧ Related E R r r' := by
  cases h with
  | ok hw h =>
    obtain ⟨r', h', hr⟩ := related_message hE hI h hk (by rintro v rfl; exact ht v hw)
    exact ⟨r', .ok hw h', hr⟩
  | parsing hw => exact ⟨_, .parsing hw, .error (hE _)⟩

end

/-! ## The other way round -/

section
variable {ι κ α β : Type} {E : Str → Str → Prop} {R : α → β → Prop} {S : Scalar → Prop} {I : ι → κ → Prop}

/-- The converse of a relation. -/
def Turned {α β : Type} (R : α → β → Prop) : β → α → Prop := fun b a => R a b

theorem Related.turn {r : Res α} {r' : Res β} (h : Related E R r r') : Related (Turned E) (Turned R) r' r := by
  cases h with
  | ok h => exact .ok h
  | error h => exact .error h

theorem Related.turnBack {r : Res α} {r' : Res β} (h : Related (Turned E) (Turned R) r' r) : Related E R r r' := by
  cases h with
  | ok h => exact .ok h
  | error h => exact .error h

theorem Related.answerBack {r : Res (Option α)} {r' : Res (Option β)} (h : Related (Turned E) (Option.Rel (Turned R)) r' r) :
    Related E (Option.Rel R) r r' := by
  cases h with
  | ok h =>
    cases h with
    | some h => exact .ok (.some h)
    | none => exact .ok .none
  | error h => exact .error h

theorem AllRelated.turnBack {h : List (Res (Option α))} {h' : List (Res (Option β))} (hh : AllRelated (Turned E) (Turned R) h' h) :
    AllRelated E R h h' := by
  induction hh with
  | nil => exact .nil
  | cons h1 _ ih => exact .cons h1.answerBack ih

theorem AfterRelated.turn {f : Res α → Res α} {g : Res β → Res β} (h : AfterRelated E R f g) :
    AfterRelated (Turned E) (Turned R) g f := fun r r' hr => (h r' r hr.turnBack).turn

theorem SeqRelated.turn {a : SeqAction ι α} {b : SeqAction κ β} (h : SeqRelated I E R a b) :
    SeqRelated (Turned I) (Turned E) (Turned R) b a := by
  cases h with
  | next h => exact .next h
  | finish h => exact .finish h.turn

theorem MapRelated.turn {a : MapAction ι α} {b : MapAction κ β} (h : MapRelated I E R a b) :
    MapRelated (Turned I) (Turned E) (Turned R) b a := by
  cases h with
  | key h => exact .key h
  | value h => exact .value h
  | finish h => exact .finish h.turn

theorem SomeRelated.turn {a : SomeAction ι α} {b : SomeAction κ β} (h : SomeRelated I E R a b) :
    SomeRelated (Turned I) (Turned E) (Turned R) b a := by
  cases h with
  | deserialize h hf => exact .deserialize h hf.turn
  | finish h => exact .finish h.turn

theorem VisitorRelated.turn {V : Visitor ι α} {W : Visitor κ β} (h : VisitorRelated S I E R V W) :
    VisitorRelated S (Turned I) (Turned E) (Turned R) W V where
  expecting := h.expecting.symm
  scalar := fun s hs => (h.scalar s hs).turn
  some := h.some.turn
  seq := fun a b hab => (h.seq b a hab.turnBack).turn
  map := fun n a b hab => (h.map n b a hab.turnBack).turn
  enum := fun k hk => (h.enum k hk).turn

theorem ImplRelated.turn {A : Impl ι α} {B : Impl κ β} (h : ImplRelated S I E R A B) :
    ImplRelated S (Turned I) (Turned E) (Turned R) B A := by
  cases h with
  | call hV hf => exact .call hV.turn hf.turn
  | ignore h => exact .ignore h.turn

variable [Platform] [FloatLib] [TextLib] {impls : ι → Impl ι α} {impls' : κ → Impl κ β}

/-- **C77** The results of `from_slice` for two implementations that do the same in different ways correspond: both are
values, related as the values of the types are, or both are errors. -/
theorem C77 {w : Bytes} (hE : ∀ e, E e e) (ht : ∀ v, deserialize w = .ok (.value v) → ∀ s, Told v s → S s)
    (hI : ∀ i k, I i k → ImplRelated S I E R (impls i) (impls' k)) {i : ι} {k : κ} (hk : I i k)
    {r : Res α} {r' : Res β} (h : FromSlice impls w i r) (h' : FromSlice impls' w k r') : Related E R r r' := by
  obtain ⟨r2, h2, hr⟩ := related_slice hE hI h hk ht
  rw [C75_unique h' h2]
  exact hr

/-- **C77** (ends) There is a result for one if and only if there is one for the other. -/
theorem C77_ends {w : Bytes} (hE : ∀ e, E e e) (ht : ∀ v, deserialize w = .ok (.value v) → ∀ s, Told v s → S s)
    (hI : ∀ i k, I i k → ImplRelated S I E R (impls i) (impls' k)) {i : ι} {k : κ} (hk : I i k) :
    (∃ r, FromSlice impls w i r) ↔ ∃ r', FromSlice impls' w k r' := by
  constructor
  · rintro ⟨r, h⟩
    obtain ⟨r', h', _⟩ := related_slice hE hI h hk ht
    exact ⟨r', h'⟩
  · rintro ⟨r, h⟩
    obtain ⟨r', h', _⟩ := related_slice (I := Turned I) (E := Turned E) (R := Turned R) (impls := impls') (impls' := impls) hE
      (fun k i hk => (hI i k hk).turn) h hk ht
    exact ⟨r', h'⟩

end

/-! ## Only what is in the input -/

section
variable {ι α : Type} {S : Scalar → Prop} {P : α → Prop}

theorem Related.eq {r r' : Res α} (h : Related Eq Eq r r') : r = r' := by
  cases h with
  | ok h => rw [h]
  | error h => rw [h]

theorem Related.refl (r : Res α) : Related Eq Eq r r := by
  cases r with
  | ok a => exact .ok rfl
  | error e => exact .error rfl

theorem AllRelated.eq {h h' : List (Res (Option α))} (hh : AllRelated Eq Eq h h') : h = h' := by
  induction hh with
  | nil => rfl
  | cons h1 _ ih =>
    rw [ih]
    cases h1 with
    | ok h1 =>
      cases h1 with
      | some h1 => rw [h1]
      | none => rfl
    | error h1 => rw [h1]

theorem AfterRelated.refl (f : Res α → Res α) : AfterRelated Eq Eq f f := fun r r' h => by rw [h.eq]; exact .refl _

theorem SameFor.related {A B : Impl ι α} (h : SameFor S A B) : ImplRelated S Eq Eq Eq A B := by
  cases h with
  | call h1 h2 =>
    refine .call ⟨rfl, fun s hs => ?_, ?_, fun h h' hh => ?_, fun n h h' hh => ?_, fun k hk => ?_⟩ (.refl _)
    · simp only [h1 s hs]
      exact .refl _
    · rename_i x y z sm _ _ _ _ _ _
      show SomeRelated Eq Eq Eq sm sm
      cases sm with
      | deserialize i g => exact .deserialize rfl (.refl g)
      | finish r => exact .finish (.refl r)
    · rename_i x y z sm seq _ _ _ _ _ 
      rw [hh.eq]
      show SeqRelated Eq Eq Eq (seq h') (seq h')
      cases seq h' with
      | next i => exact .next rfl
      | finish r => exact .finish (.refl r)
    · rename_i x y z sm seq map _ _ _ _ 
      rw [hh.eq]
      show MapRelated Eq Eq Eq (map n h') (map n h')
      cases map n h' with
      | key i => exact .key rfl
      | value i => exact .value rfl
      | finish r => exact .finish (.refl r)
    · simp only [h2 k hk]
      exact .refl _
  | ignore => exact .ignore (.refl _)

/-- Equal values that satisfy `P`. -/
def Both (P : α → Prop) (a b : α) : Prop := a = b ∧ P a

theorem both_of {r r' : Res α} : Related Eq (Both P) r r' ↔ r = r' ∧ IfOk P r := by
  constructor
  · intro h
    cases h with
    | ok h => exact ⟨by rw [h.1], fun a e => by cases e; exact h.2⟩
    | error h => exact ⟨by rw [h], fun a e => by cases e⟩
  · rintro ⟨rfl, h⟩
    cases r with
    | ok a => exact .ok ⟨rfl, h a rfl⟩
    | error e => exact .error rfl

theorem allBoth {h h' : List (Res (Option α))} (hh : AllRelated Eq (Both P) h h') : h = h' ∧ AllOk P h := by
  induction hh with
  | nil => exact ⟨rfl, fun a ha => by cases ha⟩
  | cons h1 _ ih =>
    obtain ⟨e, ih⟩ := ih
    rw [e] at ih ⊢
    cases h1 with
    | ok h1 =>
      cases h1 with
      | some h1 =>
        refine ⟨by rw [h1.1], fun a ha => ?_⟩
        rcases List.mem_cons.mp ha with e | e
        · cases e; exact h1.2
        · exact ih a e
      | none =>
        refine ⟨rfl, fun a ha => ?_⟩
        rcases List.mem_cons.mp ha with e | e
        · cases e
        · exact ih a e
    | error h1 =>
      refine ⟨by rw [h1], fun a ha => ?_⟩
      rcases List.mem_cons.mp ha with e | e
      · cases e
      · exact ih a e

theorem Preserves.related {A : Impl ι α} (h : Preserves S P A) : ImplRelated S Eq Eq (Both P) A A := by
  cases h with
  | call h1 h2 h3 h4 h5 h6 h7 =>
    rename_i m V f
    refine .call ⟨rfl, fun s hs => both_of.mpr ⟨rfl, h1 s hs⟩, ?_, fun h h' hh => ?_, fun n h h' hh => ?_,
      fun k hk => both_of.mpr ⟨rfl, h2 k hk⟩⟩ (fun r r' hr => ?_)
    · cases hs : V.some with
      | deserialize i g =>
        refine .deserialize rfl fun r r' hr => ?_
        obtain ⟨rfl, hp⟩ := both_of.mp hr
        exact both_of.mpr ⟨rfl, h3 i g hs r hp⟩
      | finish r => exact .finish (both_of.mpr ⟨rfl, h4 r hs⟩)
    · obtain ⟨rfl, hp⟩ := allBoth hh
      cases hs : V.seq h with
      | next i => exact .next rfl
      | finish r => exact .finish (both_of.mpr ⟨rfl, h5 h r hp hs⟩)
    · obtain ⟨rfl, hp⟩ := allBoth hh
      cases hs : V.map n h with
      | key i => exact .key rfl
      | value i => exact .value rfl
      | finish r => exact .finish (both_of.mpr ⟨rfl, h6 n h r hp hs⟩)
    · obtain ⟨rfl, hp⟩ := both_of.mp hr
      exact both_of.mpr ⟨rfl, h7 r hp⟩
  | ignore h => exact .ignore (both_of.mpr ⟨rfl, h⟩)

variable [Platform] [FloatLib] [TextLib] {impls impls' : ι → Impl ι α}

/-- **C77** (only the input) What a type would make of scalars and names that are not in the message has no influence on the result:
it is never told any. -/
theorem C77_told {w : Bytes} (h : ∀ i, SameFor (fun s => ∃ v, deserialize w = .ok (.value v) ∧ Told v s) (impls i) (impls' i))
    (i : ι) (r : Res α) : FromSlice impls w i r ↔ FromSlice impls' w i r := by
  have hI : ∀ i k, i = k → ImplRelated (fun s => ∃ v, deserialize w = .ok (.value v) ∧ Told v s) Eq Eq Eq (impls i) (impls' k) := by
    rintro i _ rfl
    exact (h i).related
  constructor
  · intro hr
    obtain ⟨r', h', e⟩ := related_slice (fun _ => rfl) hI hr rfl (fun v hv s hs => ⟨v, hv, hs⟩)
    rw [e.eq]
    exact h'
  · intro hr
    obtain ⟨r0, h0⟩ := (C77_ends (fun _ => rfl) (fun v hv s hs => ⟨v, hv, hs⟩) hI rfl).mpr ⟨r, hr⟩
    rw [← (C77 (fun _ => rfl) (fun v hv s hs => ⟨v, hv, hs⟩) hI rfl h0 hr).eq]
    exact h0

/-- **C77** (invariants) What all types make of the scalars and names in the message and of values that satisfy `P`, satisfies
`P`: so does what `from_slice` returns. -/
theorem C77_invariant {w : Bytes} (h : ∀ i, Preserves (fun s => ∃ v, deserialize w = .ok (.value v) ∧ Told v s) P (impls i))
    {i : ι} {a : α} (hr : FromSlice impls w i (.ok a)) : P a := by
  have := C77 (E := Eq) (R := Both P) (I := Eq) (S := fun s => ∃ v, deserialize w = .ok (.value v) ∧ Told v s) (fun _ => rfl) (fun v hv s hs => ⟨v, hv, hs⟩)
    (by rintro i _ rfl; exact (h i).related) rfl hr hr
  exact (both_of.mp this).2 a rfl

/-- **C77** (conversions) A type that is deserialised as another one and then converted (`#[serde(from = "…")]`, `transparent`,
`T::deserialize(d).map(f)`) gets the converted result, wherever it occurs in a value. -/
theorem C77_after {i j : ι} {m : Method} {V : Visitor ι α} {f g : Res α → Res α} (hi : impls i = .call m V f)
    (hj : impls j = .call m V fun r => g (f r)) {v : Value} {r : Res α} (h : Deserialize impls v i r) : Deserialize impls v j (g r) := by
  cases h with
  | ignore h => rw [hi] at h; cases h
  | call h hv =>
    rw [hi] at h
    cases h
    exact .call (after := fun r => g (f r)) hj hv

/-- **C77** (conversions) The same for the message as a whole, if it can be parsed. -/
theorem C77_convert {i j : ι} {m : Method} {V : Visitor ι α} {f g : Res α → Res α} (hi : impls i = .call m V f)
    (hj : impls j = .call m V fun r => g (f r)) {w : Bytes} (hw : ∃ x, deserialize w = .ok x) {r : Res α}
    (h : FromSlice impls w i r) : FromSlice impls w j (g r) := by
  obtain ⟨x, hw⟩ := hw
  cases h with
  | parsing h => rw [hw] at h; cases h
  | ok hw h =>
    refine .ok hw ?_
    cases h with
    | ignore h => rw [hi] at h; cases h
    | methodCall h => rw [hi] at h; cases h; exact .methodCall (after := fun r => g (f r)) hj
    | methodReturn h => rw [hi] at h; cases h; exact .methodReturn (after := fun r => g (f r)) hj
    | struct h hv => rw [hi] at h; cases h; exact .struct (after := fun r => g (f r)) hj hv
    | any h hm hv => rw [hi] at h; cases h; exact .any (after := fun r => g (f r)) hj hm hv

end

/-! ## Cases -/

/-- What a parity does after the answers so far. -/
def oddsAction {β : Type} (more : β) (finish : Res Bool → β) (h : List (Res (Option Bool))) : β :=
  match h.getLast? with
  | none => more
  | some (.ok (some _)) => more
  | some (.ok none) => finish (.ok (h.foldr (fun a b => (match a with | .ok (some x) => x | _ => false) ^^ b) false))
  | some (.error e) => finish (.error e)

/-- A user's type: whether the sum of C74 is odd. -/
def oddVisitor : Visitor Unit Bool where
  expecting := lit "numbers"
  scalar := fun s => match s with
    | .i32 n => .ok (n % 2 = 1)
    | .str s => .ok (s.length % 2 = 1)
    | .borrowedStr s => .ok (s.length % 2 = 1)
    | _ => .error (lit "not a number")
  some := .finish (.error (lit "not a number"))
  seq := oddsAction (.next ()) .finish
  map := fun _ h => oddsAction (if h.length % 2 = 0 then .key () else .value ()) .finish h
  enum := fun _ => .error (lit "not a number")

def odds : Unit → Impl Unit Bool := fun _ => .call .any oddVisitor id

theorem sum_odd {h : List (Res (Option Int))} {h' : List (Res (Option Bool))}
    (hh : AllRelated Eq (fun (n : Int) b => b = decide (n % 2 = 1)) h h') :
    h'.foldr (fun a b => (match a with | .ok (some x) => x | _ => false) ^^ b) false =
      decide ((h.map fun a => match a with | .ok (some n) => n | _ => 0).sum % 2 = 1) := by
  induction hh with
  | nil => rfl
  | @cons a b h h' hab _ ih =>
    rw [List.foldr_cons, ih, List.map_cons, List.sum_cons]
    generalize (h.map fun a => match a with | .ok (some n) => n | _ => 0).sum = y
    have hx : ∀ x : Int, (decide (x % 2 = 1) ^^ decide (y % 2 = 1)) = decide ((x + y) % 2 = 1) := by
      intro x
      by_cases h1 : x % 2 = 1 <;> by_cases h2 : y % 2 = 1
      · rw [decide_eq_true h1, decide_eq_true h2, decide_eq_false (by omega)]; rfl
      · rw [decide_eq_true h1, decide_eq_false h2, decide_eq_true (by omega)]; rfl
      · rw [decide_eq_false h1, decide_eq_true h2, decide_eq_true (by omega)]; rfl
      · rw [decide_eq_false h1, decide_eq_false h2, decide_eq_false (by omega)]; rfl
    cases hab with
    | ok hab =>
      cases hab with
      | some hab => rw [← hx, ← hab]
      | none => exact hx 0
    | error hab => exact hx 0

theorem last_related {α β : Type} {R : α → β → Prop} {h : List (Res (Option α))} {h' : List (Res (Option β))} (hh : AllRelated Eq R h h') :
    (h = [] ∧ h' = []) ∨ ∃ a b, h.getLast? = some a ∧ h'.getLast? = some b ∧ Related Eq (Option.Rel R) a b := by
  induction hh with
  | nil => exact .inl ⟨rfl, rfl⟩
  | @cons a b h h' hab _ ih =>
    refine .inr ?_
    rcases ih with ⟨rfl, rfl⟩ | ⟨x, y, h1, h2, h3⟩
    · exact ⟨a, b, rfl, rfl, hab⟩
    · exact ⟨x, y, by rw [List.getLast?_cons, h1]; rfl, by rw [List.getLast?_cons, h2]; rfl, h3⟩

theorem length_related {α β : Type} {R : α → β → Prop} {h : List (Res (Option α))} {h' : List (Res (Option β))} (hh : AllRelated Eq R h h') :
    h.length = h'.length := by
  induction hh with
  | nil => rfl
  | cons _ _ ih => simp [ih]

/-- The two types do the same. -/
theorem odds_related : ImplRelated (fun _ => True) (fun _ _ => True) Eq (fun (n : Int) b => b = decide (n % 2 = 1)) (summing ()) (odds ()) := by
  have hs : ∀ h h', AllRelated Eq (fun (n : Int) b => b = decide (n % 2 = 1)) h h' →
      SeqRelated (fun _ _ => True) Eq (fun (n : Int) b => b = decide (n % 2 = 1)) (summer.seq h) (oddVisitor.seq h') := by
    intro h h' hh
    change SeqRelated _ _ _ (summingAction _ _ h) (oddsAction _ _ h')
    unfold summingAction oddsAction
    have hsum := sum_odd hh
    rcases last_related hh with ⟨rfl, rfl⟩ | ⟨a, b, h1, h2, h3⟩
    · exact .next trivial
    · rw [h1, h2]
      cases h3 with
      | ok h3 =>
        cases h3 with
        | some h3 => exact .next trivial
        | none => exact .finish (.ok hsum)
      | error h3 => exact .finish (.error h3)
  have hm : ∀ n h h', AllRelated Eq (fun (n : Int) b => b = decide (n % 2 = 1)) h h' →
      MapRelated (fun _ _ => True) Eq (fun (n : Int) b => b = decide (n % 2 = 1)) (summer.map n h) (oddVisitor.map n h') := by
    intro n h h' hh
    change MapRelated _ _ _ (summingAction _ _ h) (oddsAction _ _ h')
    have hmore : MapRelated (fun _ _ => True) Eq (fun (n : Int) b => b = decide (n % 2 = 1))
        (if h.length % 2 = 0 then .key () else .value ()) (if h'.length % 2 = 0 then .key () else .value ()) := by
      rw [length_related hh]
      by_cases he : h'.length % 2 = 0
      · rw [if_pos he, if_pos he]; exact .key trivial
      · rw [if_neg he, if_neg he]; exact .value trivial
    unfold summingAction oddsAction
    have hsum := sum_odd hh
    rcases last_related hh with ⟨rfl, rfl⟩ | ⟨a, b, h1, h2, h3⟩
    · exact hmore
    · rw [h1, h2]
      cases h3 with
      | ok h3 =>
        cases h3 with
        | some h3 => exact hmore
        | none => exact .finish (.ok hsum)
      | error h3 => exact .finish (.error h3)
  refine .call ⟨rfl, fun s _ => ?_, .finish (.error rfl), hs, hm, fun k _ => .error rfl⟩ (fun r r' h => h)
  cases s with
  | i32 n => exact .ok rfl
  | str s => exact .ok (by show decide _ = decide _; congr 1; apply propext; omega)
  | borrowedStr s => exact .ok (by show decide _ = decide _; congr 1; apply propext; omega)
  | _ => exact .error rfl

section
variable [Platform] [FloatLib] [TextLib]

/-- So on every input the one says whether the other is odd. -/
example {w : Bytes} {n : Int} {b : Bool} (h : FromSlice summing w () (.ok n)) (h' : FromSlice odds w () (.ok b)) :
    b = decide (n % 2 = 1) := by
  have := C77 (S := fun _ => True) (E := Eq) (R := fun (n : Int) b => b = decide (n % 2 = 1)) (I := fun _ _ => True)
    (fun _ => rfl) (fun _ _ _ _ => trivial) (fun _ _ _ => odds_related) trivial h h'
  cases this with
  | ok h => exact h

/-- And on every input without negative numbers the sum is not negative. -/
example {w : Bytes} (hw : ∀ v n, deserialize w = .ok (.value v) → Told v (.i32 n) → 0 ≤ n) {n : Int}
    (h : FromSlice summing w () (.ok n)) : 0 ≤ n := by
  have hact : ∀ {β : Type} {more : β} {finish : Res Int → β} {h : List (Res (Option Int))} {r : Res Int},
      AllOk (0 ≤ ·) h → (∀ r', finish r' = finish r → r' = r) → more ≠ finish r → summingAction more finish h = finish r →
      IfOk (0 ≤ ·) r := by
    intro β more finish h r ha hinj hmore e
    unfold summingAction at e
    have hsum : 0 ≤ (h.map fun a => match a with | .ok (some n) => n | _ => 0).sum := by
      clear e
      induction h with
      | nil => exact Int.le_refl _
      | cons a h ih =>
        have ih := ih fun x hx => ha x (by simp [hx])
        rw [List.map_cons, List.sum_cons]
        match a with
        | .ok (some n) => have := ha n (by simp); dsimp only; omega
        | .ok none => dsimp only; omega
        | .error _ => dsimp only; omega
    split at e
    · exact absurd e hmore
    · exact absurd e hmore
    · rw [← hinj _ e]; intro a e; cases e; exact hsum
    · rw [← hinj _ e]; intro a e; cases e
  refine C77_invariant (P := (0 ≤ ·)) (fun _ => ?_) h
  refine .call (fun s hs => ?_) (fun k _ a e => by cases e) (fun i g e => by cases e) (fun r e => by cases e; intro a e; cases e)
    (fun h r ha e => ?_) (fun n h r ha e => ?_) (fun r h => h)
  · obtain ⟨v, hv, hs⟩ := hs
    cases s with
    | i32 n => intro a e; cases e; exact hw v n hv hs
    | str s => intro a e; cases e; exact Int.natCast_nonneg _
    | borrowedStr s => intro a e; cases e; exact Int.natCast_nonneg _
    | _ => intro a e; cases e
  · exact hact ha (fun r' e => by cases e; rfl) (fun e => by cases e) e
  · exact hact ha (fun r' e => by cases e; rfl) (fun e => by split at e <;> cases e) e

/-- What is told about a value: an array of a number and an object. -/
example : Told summed (.i32 7) ∧ Told summed (.borrowedStr (lit "ab")) ∧ ¬ Told summed (.i32 2) := by
  refine ⟨?_, ?_, ?_⟩
  · exact .element (u := .object (lit "P") (some (lit "L")) [(lit "ab", .int32 5), (lit "c", .array [.int32 7])]) (by simp)
      (.member (k := lit "c") (u := .array [.int32 7]) (by simp) (.element (u := .int32 7) (by simp) (.scalar (.int32 7))))
  · exact .element (u := .object (lit "P") (some (lit "L")) [(lit "ab", .int32 5), (lit "c", .array [.int32 7])]) (by simp)
      (.key (k := lit "ab") (v := .int32 5) (by simp))
  · have hi : ∀ {n m : Int}, Told (.int32 n) (.i32 m) → n = m := by
      intro n m h
      cases h with
      | scalar e => cases e; rfl
    intro h
    cases h with
    | scalar e => cases e
    | element hu hs =>
      simp only [List.mem_cons, List.not_mem_nil, or_false] at hu
      rcases hu with rfl | rfl | rfl
      · have := hi hs; omega
      · cases hs with
        | scalar e => cases e
        | member hm hs =>
          simp only [List.mem_cons, List.not_mem_nil, or_false] at hm
          rcases hm with e | e
          · cases e; have := hi hs; omega
          · cases e
            cases hs with
            | scalar e => cases e
            | element hu hs =>
              simp only [List.mem_cons, List.not_mem_nil, or_false] at hu
              cases hu
              have := hi hs; omega
      · cases hs with
        | scalar e => cases e

end

end Nrbf.Visitors
