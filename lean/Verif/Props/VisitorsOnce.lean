import Verif.Props.Visitors
import Verif.Props.Safety
import Verif.Tests

/-! # C75: an input means one thing to every `Deserialize` implementation -/

set_option autoImplicit false

namespace Nrbf.Visitors

section
variable {ι α : Type} [Platform] [FloatLib] [TextLib] {impls : ι → Impl ι α}

mutual
theorem deserialize_unique : ∀ {v i r}, Deserialize impls v i r → ∀ r', Deserialize impls v i r' → r = r'
  | _, _, _, .ignore h, r', h' => by
    cases h' with
    | ignore h2 => rw [h] at h2; cases h2; rfl
    | call h2 => rw [h] at h2; cases h2
  | _, _, _, .call h g, r', h' => by
    have ih := visit_unique g
    cases h' with
    | ignore h2 => rw [h] at h2; cases h2
    | call h2 g2 => rw [h] at h2; cases h2; rw [ih _ g2]
termination_by structural x0 x1 x2 h => h

theorem visit_unique : ∀ {v m V r}, Visit impls v m V r → ∀ r', Visit impls v m V r' → r = r'
  | _, _, _, _, .none, r', h' => by
    cases h' with
    | none => rfl
    | some h => exact absurd rfl h
    | any h => exact absurd rfl h
  | _, _, _, _, .some hn g, r', h' => by
    have ih := visitSome_unique g
    cases h' with
    | none => exact absurd rfl hn
    | some _ g2 => exact ih _ g2
    | any h => exact absurd rfl h
  | _, _, _, _, .structObject g, r', h' => by
    have ih := visitMap_unique g
    cases h' with
    | structObject g2 => exact ih _ g2
    | struct h => exact absurd rfl (h _ _ _)
    | any _ h => exact absurd rfl h
  | _, _, _, _, .struct hn g, r', h' => by
    have ih := visitAny_unique g
    cases h' with
    | structObject g2 => exact absurd rfl (hn _ _ _)
    | struct _ g2 => exact ih _ g2
    | any _ h => exact absurd rfl h
  | _, _, _, _, .any h1 h2 g, r', h' => by
    have ih := visitAny_unique g
    cases h' with
    | none => exact absurd rfl h1
    | some => exact absurd rfl h1
    | structObject g2 => exact absurd rfl h2
    | struct _ g2 => exact absurd rfl h2
    | any _ _ g2 => exact ih _ g2
termination_by structural x0 x1 x2 x3 h => h

theorem visitAny_unique : ∀ {v V r}, VisitAny impls v V r → ∀ r', VisitAny impls v V r' → r = r'
  | _, _, _, .scalar h, r', h' => by
    cases h' with
    | scalar h2 => rw [h] at h2; cases h2; rfl
    | array => cases h
    | object => cases h
    | boxed => cases h
    | fail => cases h
    | list => cases h
  | _, _, _, .array g, r', h' => by
    have ih := arrayRun_unique g
    cases h' with
    | scalar h2 => cases h2
    | array g2 => obtain ⟨rfl, rfl, rfl⟩ := ih _ _ _ g2; rfl
  | _, _, _, .object h g, r', h' => by
    have ih := visitMap_unique g
    cases h' with
    | scalar h2 => cases h2
    | object _ g2 => exact ih _ g2
    | boxed h2 => rw [h] at h2; cases h2
    | fail h2 => rw [h] at h2; cases h2
    | list h2 => rw [h] at h2; cases h2
  | _, _, _, .boxed h, r', h' => by
    cases h' with
    | scalar h2 => cases h2
    | object h2 => rw [h] at h2; cases h2
    | boxed h2 => rw [h] at h2; cases h2; rfl
    | fail h2 => rw [h] at h2; cases h2
    | list h2 => rw [h] at h2; cases h2
  | _, _, _, .fail h, r', h' => by
    cases h' with
    | scalar h2 => cases h2
    | object h2 => rw [h] at h2; cases h2
    | boxed h2 => rw [h] at h2; cases h2
    | fail h2 => rw [h] at h2; cases h2; rfl
    | list h2 => rw [h] at h2; cases h2
  | _, _, _, .list h g, r', h' => by
    have ih := listRun_unique g
    cases h' with
    | scalar h2 => cases h2
    | object h2 => rw [h] at h2; cases h2
    | boxed h2 => rw [h] at h2; cases h2
    | fail h2 => rw [h] at h2; cases h2
    | list h2 g2 => rw [h] at h2; cases h2; obtain ⟨rfl, rfl⟩ := ih _ _ g2; rfl
termination_by structural x0 x1 x2 h => h

theorem visitSome_unique : ∀ {v s r}, VisitSome impls v s r → ∀ r', VisitSome impls v s r' → r = r'
  | _, _, _, .deserialize g, r', h' => by
    have ih := deserialize_unique g
    cases h' with
    | deserialize g2 => rw [ih _ g2]
  | _, _, _, .finish, r', h' => by cases h'; rfl
termination_by structural x0 x1 x2 h => h

theorem visitMap_unique : ∀ {s ms V r}, VisitMap impls s ms V r → ∀ r', VisitMap impls s ms V r' → r = r'
  | _, _, _, _, .mk g, r', h' => by
    have ih := mapRun_unique g
    cases h' with
    | mk g2 => obtain ⟨rfl, rfl, rfl⟩ := ih _ _ _ g2; rfl
termination_by structural x0 x1 x2 x3 h => h

theorem arrayRun_unique : ∀ {seq vs n h r rest count}, ArrayRun impls seq vs n h r rest count →
    ∀ r' rest' count', ArrayRun impls seq vs n h r' rest' count' → r = r' ∧ rest = rest' ∧ count = count'
  | _, _, _, _, _, _, _, .finish h, _, _, _, h' => by
    cases h' with
    | finish h2 => rw [h] at h2; cases h2; exact ⟨rfl, rfl, rfl⟩
    | element h2 => rw [h] at h2; cases h2
    | exhausted h2 => rw [h] at h2; cases h2
  | _, _, _, _, _, _, _, .element h d g, _, _, _, h' => by
    have ihd := deserialize_unique d
    have ih := arrayRun_unique g
    cases h' with
    | finish h2 => rw [h] at h2; cases h2
    | element h2 d2 g2 =>
      rw [h] at h2
      cases h2
      cases ihd _ d2
      exact ih _ _ _ g2
  | _, _, _, _, _, _, _, .exhausted h g, _, _, _, h' => by
    have ih := arrayRun_unique g
    cases h' with
    | finish h2 => rw [h] at h2; cases h2
    | exhausted h2 g2 => exact ih _ _ _ g2
termination_by structural x0 x1 x2 x3 x4 x5 x6 h => h

theorem listRun_unique : ∀ {size seq vs n h r count}, ListRun impls size seq vs n h r count →
    ∀ r' count', ListRun impls size seq vs n h r' count' → r = r' ∧ count = count'
  | _, _, _, _, _, _, _, .finish h, _, _, h' => by
    cases h' with
    | finish h2 => rw [h] at h2; cases h2; exact ⟨rfl, rfl⟩
    | element h2 => rw [h] at h2; cases h2
    | error h2 => rw [h] at h2; cases h2
    | exhausted h2 => rw [h] at h2; cases h2
    | full h2 => rw [h] at h2; cases h2
  | _, _, _, _, _, _, _, .element h hlt d g, _, _, h' => by
    have ihd := deserialize_unique d
    have ih := listRun_unique g
    cases h' with
    | finish h2 => rw [h] at h2; cases h2
    | element h2 _ d2 g2 =>
      rw [h] at h2
      cases h2
      cases ihd _ d2
      exact ih _ _ g2
    | error h2 _ d2 =>
      rw [h] at h2
      cases h2
      cases ihd _ d2
    | full _ hge => exact absurd hlt hge
  | _, _, _, _, _, _, _, .error h hlt d g, _, _, h' => by
    have ihd := deserialize_unique d
    have ih := listRun_unique g
    cases h' with
    | finish h2 => rw [h] at h2; cases h2
    | element h2 _ d2 g2 =>
      rw [h] at h2
      cases h2
      cases ihd _ d2
    | error h2 _ d2 g2 =>
      rw [h] at h2
      cases h2
      cases ihd _ d2
      exact ih _ _ g2
    | full _ hge => exact absurd hlt hge
  | _, _, _, _, _, _, _, .exhausted h hlt g, _, _, h' => by
    have ih := listRun_unique g
    cases h' with
    | finish h2 => rw [h] at h2; cases h2
    | exhausted h2 _ g2 => exact ih _ _ g2
    | full _ hge => exact absurd hlt hge
  | _, _, _, _, _, _, _, .full h hge g, _, _, h' => by
    have ih := listRun_unique g
    cases h' with
    | finish h2 => rw [h] at h2; cases h2
    | element _ hlt => exact absurd hlt hge
    | error _ hlt => exact absurd hlt hge
    | exhausted _ hlt => exact absurd hlt hge
    | full _ _ g2 => exact ih _ _ g2
termination_by structural x0 x1 x2 x3 x4 x5 x6 h => h

theorem mapRun_unique : ∀ {s map ms p n h r rest count}, MapRun impls s map ms p n h r rest count →
    ∀ r' rest' count', MapRun impls s map ms p n h r' rest' count' → r = r' ∧ rest = rest' ∧ count = count'
  | _, _, _, _, _, _, _, _, _, .finish h, _, _, _, h' => by
    cases h' with
    | finish h2 => rw [h] at h2; cases h2; exact ⟨rfl, rfl, rfl⟩
    | key h2 => rw [h] at h2; cases h2
    | exhausted h2 => rw [h] at h2; cases h2
    | value h2 => rw [h] at h2; cases h2
  | _, _, _, _, _, _, _, _, _, .key h g, _, _, _, h' => by
    have ih := mapRun_unique g
    cases h' with
    | finish h2 => rw [h] at h2; cases h2
    | key h2 g2 => rw [h] at h2; cases h2; exact ih _ _ _ g2
    | value h2 => rw [h] at h2; cases h2
  | _, _, _, _, _, _, _, _, _, .exhausted h g, _, _, _, h' => by
    have ih := mapRun_unique g
    cases h' with
    | finish h2 => rw [h] at h2; cases h2
    | exhausted h2 g2 => exact ih _ _ _ g2
    | value h2 => rw [h] at h2; cases h2
  | _, _, _, _, _, _, _, _, _, .value h d g, _, _, _, h' => by
    have ihd := deserialize_unique d
    have ih := mapRun_unique g
    cases h' with
    | finish h2 => rw [h] at h2; cases h2
    | key h2 g2 => rw [h] at h2; cases h2
    | exhausted h2 => rw [h] at h2; cases h2
    | value h2 d2 g2 =>
      rw [h] at h2
      cases h2
      cases ihd _ d2
      exact ih _ _ _ g2
termination_by structural x0 x1 x2 x3 x4 x5 x6 x7 x8 h => h
end

/-- A message means one thing to a type. -/
theorem message_unique {m : RemotingMessage} {i : ι} {r r' : Res α} (h : DeserializeMessage impls m i r)
    (h' : DeserializeMessage impls m i r') : r = r' := by
  cases h with
  | ignore h =>
    cases h' with
    | ignore h2 => rw [h] at h2; cases h2; rfl
    | methodCall h2 => rw [h] at h2; cases h2
    | methodReturn h2 => rw [h] at h2; cases h2
    | struct h2 => rw [h] at h2; cases h2
    | any h2 => rw [h] at h2; cases h2
  | methodCall h =>
    cases h' with
    | ignore h2 => rw [h] at h2; cases h2
    | methodCall h2 => rw [h] at h2; cases h2; rfl
  | methodReturn h =>
    cases h' with
    | ignore h2 => rw [h] at h2; cases h2
    | methodReturn h2 => rw [h] at h2; cases h2; rfl
  | struct h g =>
    cases h' with
    | ignore h2 => rw [h] at h2; cases h2
    | struct h2 g2 => rw [h] at h2; cases h2; rw [visit_unique g _ g2]
    | any h2 hne => rw [h] at h2; cases h2; exact absurd rfl hne
  | any h hne g =>
    cases h' with
    | ignore h2 => rw [h] at h2; cases h2
    | struct h2 g2 => rw [h] at h2; cases h2; exact absurd rfl hne
    | any h2 _ g2 => rw [h] at h2; cases h2; rw [visitAny_unique g _ g2]

/-! ## Types that return -/

/-- There is a result for the value, whatever the type. -/
def Always (impls : ι → Impl ι α) (v : Value) : Prop := ∀ i, ∃ r, Deserialize impls v i r

theorem arrayRun_total {seq : List (Res (Option α)) → SeqAction ι α}
    (hs : ∀ h a, ¬ Got a → ∃ r, seq (h ++ [a]) = .finish r) : ∀ (vs : List Value), (∀ v ∈ vs, Always impls v) → ∀ n h,
    ∃ r rest count, ArrayRun impls seq vs n h r rest count
  | [], _, n, h => by
    cases e : seq h with
    | finish r => exact ⟨_, _, _, .finish e⟩
    | next i =>
      obtain ⟨r, e2⟩ := hs h (.ok none) (by rintro ⟨x, ⟨⟩⟩)
      exact ⟨_, _, _, .exhausted e (.finish e2)⟩
  | v :: vs, hv, n, h => by
    cases e : seq h with
    | finish r => exact ⟨_, _, _, .finish e⟩
    | next i =>
      obtain ⟨a, d⟩ := hv v (List.mem_cons_self ..) i
      obtain ⟨r, rest, count, g⟩ := arrayRun_total hs vs (fun u hu => hv u (List.mem_cons_of_mem _ hu)) (n + 1) (h ++ [a.map some])
      exact ⟨_, _, _, .element e d g⟩

theorem listRun_total {size : Nat} {seq : List (Res (Option α)) → SeqAction ι α}
    (hs : ∀ h a, ¬ Got a → ∃ r, seq (h ++ [a]) = .finish r) : ∀ (vs : List Value), (∀ v ∈ vs, Always impls v) → ∀ n h,
    ∃ r count, ListRun impls size seq vs n h r count
  | vs, hv, n, h => by
    cases e : seq h with
    | finish r => exact ⟨_, _, .finish e⟩
    | next i =>
      obtain ⟨r, e2⟩ := hs h (.ok none) (by rintro ⟨x, ⟨⟩⟩)
      by_cases hlt : n < size
      · match vs, hv with
        | [], _ => exact ⟨_, _, .exhausted e hlt (.finish e2)⟩
        | v :: vs, hv =>
          obtain ⟨a, d⟩ := hv v (List.mem_cons_self ..) i
          have ih := listRun_total (size := size) hs vs (fun u hu => hv u (List.mem_cons_of_mem _ hu))
          cases a with
          | ok a =>
            obtain ⟨r, count, g⟩ := ih (n + 1) (h ++ [.ok (some a)])
            exact ⟨_, _, .element e hlt d g⟩
          | error a =>
            obtain ⟨r, count, g⟩ := ih n (h ++ [.error a])
            exact ⟨_, _, .error e hlt d g⟩
      · exact ⟨_, _, .full e hlt (.finish e2)⟩
termination_by vs => vs.length

omit [Platform] [FloatLib] [TextLib] in
theorem got_snoc {h : List (Res (Option α))} {a : Res (Option α)} (hg : ∀ a ∈ h, Got a) (ha : Got a) : ∀ b ∈ h ++ [a], Got b := by
  intro b hb
  rcases List.mem_append.mp hb with hb | hb
  · exact hg b hb
  · rw [List.mem_singleton.mp hb]
    exact ha

theorem mapRun_total {scalar : Str → Scalar} {map : List (Res (Option α)) → MapAction ι α}
    (hs : ∀ h a, ¬ Got a → ∃ r, map (h ++ [a]) = .finish r)
    (hval : ∀ h j, (∀ a ∈ h, Got a) → map h = .value j → ∃ h' a j', h = h' ++ [a] ∧ map h' = .key j') :
    ∀ (ms : List (Str × Value)), (∀ m ∈ ms, Always impls m.2) → ∀ p n h, (∀ a ∈ h, Got a) → (∀ v, p = some v → Always impls v) →
    (p = none → ∀ i, map h ≠ .value i) → ∃ r rest count, MapRun impls scalar map ms p n h r rest count := by
  intro ms
  induction ms with
  | nil =>
    intro _
    have step : ∀ p n h, (∀ a ∈ h, Got a) → (∀ i, map h ≠ .value i) → ∃ r rest count, MapRun impls scalar map [] p n h r rest count := by
      intro p n h hg hn
      cases e : map h with
      | finish r => exact ⟨_, _, _, .finish e⟩
      | value i => exact absurd e (hn i)
      | key i =>
        obtain ⟨r, e2⟩ := hs h (.ok none) (by rintro ⟨x, ⟨⟩⟩)
        exact ⟨_, _, _, .exhausted e (.finish e2)⟩
    intro p n h hg hp hn
    cases e : map h with
    | finish r => exact ⟨_, _, _, .finish e⟩
    | key i => exact step p n h hg (by simp [e])
    | value i =>
      cases p with
      | none => exact absurd e (hn rfl i)
      | some v =>
        obtain ⟨a, d⟩ := hp v rfl i
        by_cases ha : Got (a.map some)
        case neg =>
          obtain ⟨r, e2⟩ := hs h _ ha
          exact ⟨_, _, _, .value e d (.finish e2)⟩
        have hg' := got_snoc hg ha
        obtain ⟨r, rest, count, g⟩ := step none n (h ++ [a.map some]) hg' (fun j ej => by
          obtain ⟨h', a', j', e1, e2⟩ := hval _ _ hg' ej
          cases (List.append_inj' e1 rfl).1
          rw [e] at e2
          cases e2)
        exact ⟨_, _, _, .value e d g⟩
  | cons m ms ih =>
    obtain ⟨k, v⟩ := m
    intro hall
    have ih := ih (fun u hu => hall u (List.mem_cons_of_mem _ hu))
    have step : ∀ p n h, (∀ a ∈ h, Got a) → (∀ i, map h ≠ .value i) → ∃ r rest count, MapRun impls scalar map ((k, v) :: ms) p n h r rest count := by
      intro p n h hg hn
      cases e : map h with
      | finish r => exact ⟨_, _, _, .finish e⟩
      | value i => exact absurd e (hn i)
      | key i =>
        by_cases ha : Got ((deserializeKey scalar k (impls i)).map some)
        case neg =>
          obtain ⟨r, e2⟩ := hs h _ ha
          exact ⟨_, _, _, .key e (.finish e2)⟩
        obtain ⟨r, rest, count, g⟩ := ih (some v) (n + 1) (h ++ [(deserializeKey scalar k (impls i)).map some]) (got_snoc hg ha)
          (fun u hu => by cases hu; exact hall (k, v) (List.mem_cons_self ..)) (by simp)
        exact ⟨_, _, _, .key e g⟩
    intro p n h hg hp hn
    cases e : map h with
    | finish r => exact ⟨_, _, _, .finish e⟩
    | key i => exact step p n h hg (by simp [e])
    | value i =>
      cases p with
      | none => exact absurd e (hn rfl i)
      | some v =>
        obtain ⟨a, d⟩ := hp v rfl i
        by_cases ha : Got (a.map some)
        case neg =>
          obtain ⟨r, e2⟩ := hs h _ ha
          exact ⟨_, _, _, .value e d (.finish e2)⟩
        have hg' := got_snoc hg ha
        obtain ⟨r, rest, count, g⟩ := step none n (h ++ [a.map some]) hg' (fun j ej => by
          obtain ⟨h', a', j', e1, e2⟩ := hval _ _ hg' ej
          cases (List.append_inj' e1 rfl).1
          rw [e] at e2
          cases e2)
        exact ⟨_, _, _, .value e d g⟩

omit [Platform] [FloatLib] [TextLib] in
theorem get?_in {β : Type} {ms : List (Str × β)} {k : Str} {x : β} (h : AMap.get? ms k = some x) : (k, x) ∈ ms := by
  induction ms with
  | nil => cases h
  | cons m ms ih =>
    obtain ⟨k', y⟩ := m
    unfold AMap.get? at h
    split at h
    · rename_i e
      cases h
      subst e
      exact List.mem_cons_self ..
    · exact List.mem_cons_of_mem _ (ih h)

omit [FloatLib] [TextLib] [Platform] in
theorem listOf_items {ms : List (Str × Value)} {vs : List Value} {size : Int} (h : listOf ms = some (vs, size)) :
    (lit "_items", Value.array vs) ∈ ms ∧ (lit "_size", Value.int32 size) ∈ ms := by
  unfold listOf at h
  split at h
  · split at h
    · rename_i h1 h2 _
      cases h
      exact ⟨get?_in h1, get?_in h2⟩
    · cases h
  · cases h

omit [Platform] [FloatLib] [TextLib] in
theorem ite_cases {β : Type} {p : Prop} [Decidable p] {a b x : β} (h : (if p then a else b) = x) : (p ∧ a = x) ∨ (¬ p ∧ b = x) := by
  by_cases hp : p
  · exact .inl ⟨hp, by rwa [if_pos hp] at h⟩
  · exact .inr ⟨hp, by rwa [if_neg hp] at h⟩

/-- The items of a list are inside the object. -/
theorem objectCall_list {c : Str} {l : Option Str} {ms : List (Str × Value)} {vs : List Value} {size : Nat}
    (h : objectCall c l ms = .list vs size) : ∃ n, listOf ms = some (vs, n) ∧ size = asUsize n := by
  have hb : ∀ {e T f}, boxedCall e T f ms ≠ .list vs size := by
    intro e T f
    unfold boxedCall
    split
    · split <;> simp
    · simp
  unfold objectCall at h
  rcases ite_cases h with ⟨-, h⟩ | ⟨-, h⟩
  · cases h
  iterate 12
    rcases ite_cases h with ⟨-, h⟩ | ⟨-, h⟩
    · exact absurd h hb
  rcases ite_cases h with ⟨-, h⟩ | ⟨-, h⟩
  · cases e : listOf ms with
    | none => rw [e] at h; cases h
    | some x =>
      obtain ⟨items, n⟩ := x
      rw [e] at h
      cases h
      exact ⟨n, rfl, rfl⟩
  · cases h

theorem visitMap_total {scalar : Str → Scalar} {ms : List (Str × Value)} {V : Visitor ι α}
    (hs : ∀ n h a, ¬ Got a → ∃ r, V.map n (h ++ [a]) = .finish r)
    (hval : ∀ n h j, (∀ a ∈ h, Got a) → V.map n h = .value j → ∃ h' a j', h = h' ++ [a] ∧ V.map n h' = .key j')
    (hm : ∀ m ∈ ms, Always impls m.2) : ∃ r, VisitMap impls scalar ms V r := by
  obtain ⟨r, rest, count, g⟩ := mapRun_total (scalar := scalar) (hs ms.length) (hval ms.length) ms hm none 0 [] (by simp) (by simp) (by
    intro _ i e
    obtain ⟨h', a, j, e1, -⟩ := hval _ _ _ (by simp) e
    cases h' <;> cases e1)
  exact ⟨_, .mk g⟩

theorem visitAny_total {v : Value} {V : Visitor ι α} (hseq : ∀ h a, ¬ Got a → ∃ r, V.seq (h ++ [a]) = .finish r)
    (hs : ∀ n h a, ¬ Got a → ∃ r, V.map n (h ++ [a]) = .finish r)
    (hval : ∀ n h j, (∀ a ∈ h, Got a) → V.map n h = .value j → ∃ h' a j', h = h' ++ [a] ∧ V.map n h' = .key j')
    (ih : ∀ u : Value, sizeOf u < sizeOf v → Always impls u) : ∃ r, VisitAny impls v V r := by
  cases e : scalarOf v with
  | some s => exact ⟨_, .scalar e⟩
  | none =>
    cases v with
    | array vs =>
      obtain ⟨r, rest, count, g⟩ := arrayRun_total hseq vs (fun u hu => ih u (by
        have := List.sizeOf_lt_of_mem hu
        simp only [Value.array.sizeOf_spec]
        omega)) 0 []
      exact ⟨_, .array g⟩
    | object c l ms =>
      have hm : ∀ m ∈ ms, sizeOf m.2 < sizeOf (Value.object c l ms) := by
        intro m hm
        have := List.sizeOf_lt_of_mem hm
        have h2 : sizeOf m = 1 + sizeOf m.1 + sizeOf m.2 := by cases m; rfl
        simp only [Value.object.sizeOf_spec]
        omega
      cases e2 : objectCall c l ms with
      | map =>
        obtain ⟨r, g⟩ := visitMap_total (scalar := .borrowedStr) hs hval (fun m h => ih m.2 (hm m h))
        exact ⟨_, .object e2 g⟩
      | boxed s => exact ⟨_, .boxed e2⟩
      | fail t => exact ⟨_, .fail e2⟩
      | list vs size =>
        obtain ⟨n, h1, -⟩ := objectCall_list e2
        have h2 := hm _ (listOf_items h1).1
        obtain ⟨r, count, g⟩ := listRun_total (size := size) hseq vs (fun u hu => ih u (by
          have := List.sizeOf_lt_of_mem hu
          simp only [Value.array.sizeOf_spec] at h2
          omega)) 0 []
        exact ⟨_, .list e2 g⟩
    | _ => simp [scalarOf] at e

theorem deserialize_total (ho : Orderly impls) : ∀ v i, ∃ r, Deserialize impls v i r := by
  obtain ⟨rank, hr⟩ := ho.option
  suffices h : ∀ n (v : Value), sizeOf v < n → Always impls v from fun v => h _ v (Nat.lt_succ_self _)
  intro n
  induction n with
  | zero => intro v hv; omega
  | succ n ih =>
    intro v hv
    suffices h : ∀ k i, rank i < k → ∃ r, Deserialize impls v i r from fun i => h _ i (Nat.lt_succ_self _)
    intro k
    induction k with
    | zero => intro i hi; omega
    | succ k ihk =>
      intro i hi
      cases e : impls i with
      | ignore r => exact ⟨_, .ignore e⟩
      | call m V f =>
        have ih' : ∀ u : Value, sizeOf u < sizeOf v → Always impls u := fun u hu => ih u (by omega)
        obtain ⟨rany, hany⟩ := visitAny_total (impls := impls) (V := V) (ho.seq e) (ho.map e) (ho.value e) ih'
        suffices h : ∃ r, Visit impls v m V r from by
          obtain ⟨r, g⟩ := h
          exact ⟨_, .call e g⟩
        by_cases h1 : m = .option
        · subst h1
          by_cases h2 : v = .null
          · subst h2
            exact ⟨_, .none⟩
          · cases e2 : V.some with
            | finish r => exact ⟨r, .some h2 (e2 ▸ .finish)⟩
            | deserialize j g =>
              obtain ⟨r, d⟩ := ihk j (by have := hr e e2; omega)
              exact ⟨conclude g r, .some h2 (by rw [e2]; exact .deserialize d)⟩
        · by_cases h2 : m = .struct
          · subst h2
            by_cases h3 : ∃ c l ms, v = .object c l ms
            · obtain ⟨c, l, ms, rfl⟩ := h3
              obtain ⟨r, g⟩ := visitMap_total (impls := impls) (ms := ms) (scalar := .str) (ho.map e) (ho.value e) (fun m hm => ih' m.2 (by
                have := List.sizeOf_lt_of_mem hm
                have h2 : sizeOf m = 1 + sizeOf m.1 + sizeOf m.2 := by cases m; rfl
                simp only [Value.object.sizeOf_spec]
                omega))
              exact ⟨_, .structObject g⟩
            · exact ⟨_, .struct (fun c l ms h => h3 ⟨c, l, ms, h⟩) hany⟩
          · exact ⟨_, .any h1 h2 hany⟩

/-- **C75** (a result) Types that return get a result from every message. -/
theorem message_total (ho : Orderly impls) (m : RemotingMessage) (i : ι) : ∃ r, DeserializeMessage impls m i r := by
  cases e : impls i with
  | ignore r => exact ⟨_, .ignore e⟩
  | call md V f =>
    cases m with
    | methodCall c => exact ⟨_, .methodCall e⟩
    | methodReturn c => exact ⟨_, .methodReturn e⟩
    | value v =>
      by_cases h2 : md = .struct
      · subst h2
        by_cases h3 : ∃ c l ms, v = .object c l ms
        · obtain ⟨c, l, ms, rfl⟩ := h3
          obtain ⟨r, g⟩ := visitMap_total (scalar := .str) (ho.map e) (ho.value e)
            (fun m _ => deserialize_total (impls := impls) ho m.2)
          exact ⟨_, .struct e (.structObject g)⟩
        · obtain ⟨r, g⟩ := visitAny_total (impls := impls) (v := v) (ho.seq e) (ho.map e) (ho.value e)
            (fun u _ => deserialize_total (impls := impls) ho u)
          exact ⟨_, .struct e (.struct (fun c l ms h => h3 ⟨c, l, ms, h⟩) g)⟩
      · obtain ⟨r, g⟩ := visitAny_total (impls := impls) (v := v) (ho.seq e) (ho.map e) (ho.value e)
          (fun u _ => deserialize_total (impls := impls) ho u)
        exact ⟨_, .any e h2 g⟩

/-- **C75** (a result) `from_slice` has a result for every orderly type and every input on which the parser does
not panic (the inputs of C61). -/
theorem C75_total (ho : Orderly impls) {w : Bytes} (hw : deserialize w ≠ .panic) (i : ι) : ∃ r, FromSlice impls w i r := by
  cases e : deserialize w with
  | ok m =>
    obtain ⟨r, h⟩ := message_total ho m i
    exact ⟨_, .ok e h⟩
  | err e' => exact ⟨_, .parsing e⟩
  | panic => exact absurd e hw
  | hang => exact absurd e (C01_terminates w)

/-- **C75** (at most one result) `from_slice` has at most one result, whatever the type. -/
theorem C75_unique {w : Bytes} {i : ι} {r r' : Res α} (h : FromSlice impls w i r) (h' : FromSlice impls w i r') : r = r' := by
  cases h with
  | ok h g =>
    cases h' with
    | ok h2 g2 => rw [h] at h2; cases h2; exact message_unique g g2
    | parsing h2 => rw [h] at h2; cases h2
  | parsing h =>
    cases h' with
    | ok h2 g2 => rw [h] at h2; cases h2
    | parsing h2 => rw [h] at h2; cases h2; rfl

omit [Platform] [FloatLib] [TextLib] in
theorem summingAction_finish {β : Type} {more : β} {finish : Res Int → β} (h : List (Res (Option Int))) {a : Res (Option Int)}
    (ha : ¬ Got a) : ∃ r, summingAction more finish (h ++ [a]) = finish r := by
  unfold summingAction
  rw [List.getLast?_concat]
  match a with
  | .ok (some x) => exact absurd ⟨x, rfl⟩ ha
  | .ok none => exact ⟨_, rfl⟩
  | .error e => exact ⟨_, rfl⟩

omit [Platform] [FloatLib] [TextLib] in
/-- The user's type of C74 is orderly. -/
theorem summing_orderly : Orderly summing where
  seq := by
    intro i m V f e h a ha
    cases e
    exact summingAction_finish h ha
  map := by
    intro i m V f e n h a ha
    cases e
    exact summingAction_finish h ha
  value := by
    intro i m V f e n h j hg hv
    cases e
    change summingAction _ _ h = _ at hv
    have hmap : ∀ h', (∀ a ∈ h', Got a) → summer.map n h' = if h'.length % 2 = 0 then .key () else .value () := by
      intro h' hg'
      change summingAction _ _ h' = _
      unfold summingAction
      rcases List.eq_nil_or_concat h' with rfl | ⟨h', a, rfl⟩
      · rfl
      · rw [List.concat_eq_append] at hg' ⊢
        obtain ⟨x, rfl⟩ := hg' a (by simp)
        rw [List.getLast?_concat]
    rcases List.eq_nil_or_concat h with rfl | ⟨h', a, rfl⟩
    · cases hv
    · rw [List.concat_eq_append] at hg hv ⊢
      refine ⟨h', a, (), rfl, ?_⟩
      have h1 := hmap _ hg
      change summer.map n (h' ++ [a]) = _ at hv
      rw [hv] at h1
      rw [hmap h' fun b hb => hg b (by simp [hb])]
      by_cases he : h'.length % 2 = 0
      · rw [if_pos he]
      · rw [List.length_append, List.length_singleton, if_pos (by omega)] at h1
        cases h1
  option := ⟨fun _ => 0, by intro i V f j g e; cases e⟩

/-- The result of C75 for it. -/
example : (∃ r, Deserialize summing summed () r) ∧ ∀ r, Deserialize summing summed () r → r = .ok 19 :=
  ⟨deserialize_total summing_orderly _ _, fun _ h => deserialize_unique h _ summing_summed⟩

/-- A whole input: a string. -/
example : FromSlice summing (Nrbf.Tests.header 1 ++ [6, 1,0,0,0, 2, 104,105, 11]) () (.ok 2) := by
  have e : deserialize (Nrbf.Tests.header 1 ++ [6, 1,0,0,0, 2, 104,105, 11]) = .ok (.value (.string [104, 105])) := by platform_decide
  refine .ok e ?_
  have h : DeserializeMessage summing (.value (.string [104, 105])) () (conclude id (summer.scalar (.borrowedStr [104, 105]))) :=
    .any (m := .any) rfl (by decide) (.scalar rfl)
  exact h

end

end Nrbf.Visitors
