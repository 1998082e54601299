import Verif.Spec.Calls
import Verif.Spec.Visitor
import Verif.Props.VisitorsTold
import Verif.Props.VisitorsOnce
import Verif.Props.RustTypes
import Verif.Props.Evolve

/-! # C83: what is handed out, and how often -/

set_option autoImplicit false

namespace Nrbf.Visitors

section
variable {ι α : Type} [Platform] [FloatLib] [TextLib] {impls : ι → Impl ι α}

/-! ## The relations with a log are the relations without -/

mutual
theorem log_deserialize : ∀ {v i r}, Deserialize impls v i r → ∃ t, LDeserialize impls v i r t
  | _, _, _, .ignore h => ⟨_, .ignore h⟩
  | _, _, _, .call h g => by obtain ⟨t, ih⟩ := log_visit g; exact ⟨t, .call h ih⟩
termination_by structural x0 x1 x2 h => h
theorem log_visit : ∀ {v m V r}, Visit impls v m V r → ∃ t, LVisit impls v m V r t
  | _, _, _, _, .none => ⟨_, .none⟩
  | _, _, _, _, .some hn g => by obtain ⟨t, ih⟩ := log_visitSome g; exact ⟨t, .some hn ih⟩
  | _, _, _, _, .structObject g => by obtain ⟨t, ih⟩ := log_visitMap g; exact ⟨_, .structObject ih⟩
  | _, _, _, _, .struct hn g => by obtain ⟨t, ih⟩ := log_visitAny g; exact ⟨t, .struct hn ih⟩
  | _, _, _, _, .any h1 h2 g => by obtain ⟨t, ih⟩ := log_visitAny g; exact ⟨t, .any h1 h2 ih⟩
termination_by structural x0 x1 x2 x3 h => h
theorem log_visitAny : ∀ {v V r}, VisitAny impls v V r → ∃ t, LVisitAny impls v V r t
  | _, _, _, .scalar h => ⟨_, .scalar h⟩
  | _, _, _, .array g => by obtain ⟨t, ih⟩ := log_arrayRun g; exact ⟨_, .array ih⟩
  | _, _, _, .object h g => by obtain ⟨t, ih⟩ := log_visitMap g; exact ⟨_, .object h ih⟩
  | _, _, _, .boxed h => ⟨_, .boxed h⟩
  | _, _, _, .fail h => ⟨_, .fail h⟩
  | _, _, _, .list h g => by obtain ⟨t, ih⟩ := log_listRun g; exact ⟨_, .list h ih⟩
termination_by structural x0 x1 x2 h => h
theorem log_visitSome : ∀ {v s r}, VisitSome impls v s r → ∃ t, LVisitSome impls v s r t
  | _, _, _, .deserialize g => by obtain ⟨t, ih⟩ := log_deserialize g; exact ⟨t, .deserialize ih⟩
  | _, _, _, .finish => ⟨_, .finish⟩
termination_by structural x0 x1 x2 h => h
theorem log_visitMap : ∀ {s ms V r}, VisitMap impls s ms V r → ∃ t, LVisitMap impls s ms V r t
  | _, _, _, _, .mk g => by obtain ⟨t, ih⟩ := log_mapRun g; exact ⟨t, .mk ih⟩
termination_by structural x0 x1 x2 x3 h => h
theorem log_arrayRun : ∀ {seq vs n h r rest count}, ArrayRun impls seq vs n h r rest count →
    ∃ t, LArrayRun impls seq vs n h r rest count t
  | _, _, _, _, _, _, _, .finish h => ⟨_, .finish h⟩
  | _, _, _, _, _, _, _, .element h d g => by
    obtain ⟨t, ihd⟩ := log_deserialize d; obtain ⟨t', ih⟩ := log_arrayRun g; exact ⟨_, .element h ihd ih⟩
  | _, _, _, _, _, _, _, .exhausted h g => by obtain ⟨t, ih⟩ := log_arrayRun g; exact ⟨_, .exhausted h ih⟩
termination_by structural x0 x1 x2 x3 x4 x5 x6 h => h
theorem log_listRun : ∀ {size seq vs n h r count}, ListRun impls size seq vs n h r count →
    ∃ t, LListRun impls size seq vs n h r count t
  | _, _, _, _, _, _, _, .finish h => ⟨_, .finish h⟩
  | _, _, _, _, _, _, _, .element h hl d g => by
    obtain ⟨t, ihd⟩ := log_deserialize d; obtain ⟨t', ih⟩ := log_listRun g; exact ⟨_, .element h hl ihd ih⟩
  | _, _, _, _, _, _, _, .error h hl d g => by
    obtain ⟨t, ihd⟩ := log_deserialize d; obtain ⟨t', ih⟩ := log_listRun g; exact ⟨_, .error h hl ihd ih⟩
  | _, _, _, _, _, _, _, .exhausted h hl g => by obtain ⟨t, ih⟩ := log_listRun g; exact ⟨_, .exhausted h hl ih⟩
  | _, _, _, _, _, _, _, .full h hl g => by obtain ⟨t, ih⟩ := log_listRun g; exact ⟨_, .full h hl ih⟩
termination_by structural x0 x1 x2 x3 x4 x5 x6 h => h
theorem log_mapRun : ∀ {s map ms p n h r rest count}, MapRun impls s map ms p n h r rest count →
    ∃ t, LMapRun impls s map ms p n h r rest count t
  | _, _, _, _, _, _, _, _, _, .finish h => ⟨_, .finish h⟩
  | _, _, _, _, _, _, _, _, _, .key h g => by obtain ⟨t, ih⟩ := log_mapRun g; exact ⟨_, .key h ih⟩
  | _, _, _, _, _, _, _, _, _, .exhausted h g => by obtain ⟨t, ih⟩ := log_mapRun g; exact ⟨_, .exhausted h ih⟩
  | _, _, _, _, _, _, _, _, _, .value h d g => by
    obtain ⟨t, ihd⟩ := log_deserialize d; obtain ⟨t', ih⟩ := log_mapRun g; exact ⟨_, .value h ihd ih⟩
termination_by structural x0 x1 x2 x3 x4 x5 x6 x7 x8 h => h
end

mutual
theorem erase_deserialize : ∀ {v i r t}, LDeserialize impls v i r t → Deserialize impls v i r
  | _, _, _, _, .ignore h => .ignore h
  | _, _, _, _, .call h g => .call h (erase_visit g)
termination_by structural x0 x1 x2 x3 h => h
theorem erase_visit : ∀ {v m V r t}, LVisit impls v m V r t → Visit impls v m V r
  | _, _, _, _, _, .none => .none
  | _, _, _, _, _, .some hn g => .some hn (erase_visitSome g)
  | _, _, _, _, _, .structObject g => .structObject (erase_visitMap g)
  | _, _, _, _, _, .struct hn g => .struct hn (erase_visitAny g)
  | _, _, _, _, _, .any h1 h2 g => .any h1 h2 (erase_visitAny g)
termination_by structural x0 x1 x2 x3 x4 h => h
theorem erase_visitAny : ∀ {v V r t}, LVisitAny impls v V r t → VisitAny impls v V r
  | _, _, _, _, .scalar h => .scalar h
  | _, _, _, _, .array g => .array (erase_arrayRun g)
  | _, _, _, _, .object h g => .object h (erase_visitMap g)
  | _, _, _, _, .boxed h => .boxed h
  | _, _, _, _, .fail h => .fail h
  | _, _, _, _, .list h g => .list h (erase_listRun g)
termination_by structural x0 x1 x2 x3 h => h
theorem erase_visitSome : ∀ {v s r t}, LVisitSome impls v s r t → VisitSome impls v s r
  | _, _, _, _, .deserialize g => .deserialize (erase_deserialize g)
  | _, _, _, _, .finish => .finish
termination_by structural x0 x1 x2 x3 h => h
theorem erase_visitMap : ∀ {s ms V r t}, LVisitMap impls s ms V r t → VisitMap impls s ms V r
  | _, _, _, _, _, .mk g => .mk (erase_mapRun g)
termination_by structural x0 x1 x2 x3 x4 h => h
theorem erase_arrayRun : ∀ {seq vs n h r rest count t}, LArrayRun impls seq vs n h r rest count t →
    ArrayRun impls seq vs n h r rest count
  | _, _, _, _, _, _, _, _, .finish h => .finish h
  | _, _, _, _, _, _, _, _, .element h d g => .element h (erase_deserialize d) (erase_arrayRun g)
  | _, _, _, _, _, _, _, _, .exhausted h g => .exhausted h (erase_arrayRun g)
termination_by structural x0 x1 x2 x3 x4 x5 x6 x7 h => h
theorem erase_listRun : ∀ {size seq vs n h r count t}, LListRun impls size seq vs n h r count t →
    ListRun impls size seq vs n h r count
  | _, _, _, _, _, _, _, _, .finish h => .finish h
  | _, _, _, _, _, _, _, _, .element h hl d g => .element h hl (erase_deserialize d) (erase_listRun g)
  | _, _, _, _, _, _, _, _, .error h hl d g => .error h hl (erase_deserialize d) (erase_listRun g)
  | _, _, _, _, _, _, _, _, .exhausted h hl g => .exhausted h hl (erase_listRun g)
  | _, _, _, _, _, _, _, _, .full h hl g => .full h hl (erase_listRun g)
termination_by structural x0 x1 x2 x3 x4 x5 x6 x7 h => h
theorem erase_mapRun : ∀ {s map ms p n h r rest count t}, LMapRun impls s map ms p n h r rest count t →
    MapRun impls s map ms p n h r rest count
  | _, _, _, _, _, _, _, _, _, _, .finish h => .finish h
  | _, _, _, _, _, _, _, _, _, _, .key h g => .key h (erase_mapRun g)
  | _, _, _, _, _, _, _, _, _, _, .exhausted h g => .exhausted h (erase_mapRun g)
  | _, _, _, _, _, _, _, _, _, _, .value h d g => .value h (erase_deserialize d) (erase_mapRun g)
termination_by structural x0 x1 x2 x3 x4 x5 x6 x7 x8 x9 h => h
end

/-- **C83** The relation with a log is `from_slice`. -/
theorem C83_log {w : Bytes} {i : ι} {r : Res α} : FromSlice impls w i r ↔ ∃ t, LFromSlice impls w i r t := by
  constructor
  · intro h
    cases h with
    | ok hw g =>
      cases g with
      | ignore h => exact ⟨_, .ignore hw h⟩
      | methodCall h => exact ⟨_, .methodCall hw h⟩
      | methodReturn h => exact ⟨_, .methodReturn hw h⟩
      | struct h g => obtain ⟨t, g⟩ := log_visit g; exact ⟨t, .struct hw h g⟩
      | any h hm g => obtain ⟨t, g⟩ := log_visitAny g; exact ⟨t, .any hw h hm g⟩
    | parsing hw => exact ⟨_, .parsing hw⟩
  · rintro ⟨t, h⟩
    cases h with
    | ignore hw h => exact .ok hw (.ignore h)
    | methodCall hw h => exact .ok hw (.methodCall h)
    | methodReturn hw h => exact .ok hw (.methodReturn h)
    | struct hw h g => exact .ok hw (.struct h (erase_visit g))
    | any hw h hm g => exact .ok hw (.any h hm (erase_visitAny g))
    | parsing hw => exact .parsing hw

/-! ## What is handed out -/

omit [Platform] [FloatLib] [TextLib] in
theorem visits_append (t t' : List Call) : visits (t ++ t') = visits t ++ visits t' := by
  induction t with
  | nil => rfl
  | cons c t ih => cases c <;> simp [visits, ih]

omit [Platform] [FloatLib] [TextLib] in
theorem requests_append (t t' : List Call) : requests (t ++ t') = requests t + requests t' := by
  induction t with
  | nil => simp [requests]
  | cons c t ih => cases c <;> simp [requests, ih]; omega

omit [Platform] [FloatLib] [TextLib] in
theorem preorder_head (v : Value) : ∃ l, preorder v = v :: l := by
  cases v <;> exact ⟨_, by rw [preorder] <;> simp⟩

omit [Platform] [FloatLib] [TextLib] in
theorem preorder_member {k : Str} {v : Value} {ms : List (Str × Value)} (h : (k, v) ∈ ms) : (preorder v).Sublist (preorderMembers ms) := by
  induction ms with
  | nil => cases h
  | cons e ms ih =>
    obtain ⟨k', v'⟩ := e
    rw [preorderMembers]
    rcases List.mem_cons.mp h with h | h
    · cases h; exact List.sublist_append_left _ _
    · exact (ih h).trans (List.sublist_append_right _ _)

/-- The items of a list are in one of its members. -/
theorem preorder_list {c : Str} {l : Option Str} {ms : List (Str × Value)} {vs : List Value} {size : Nat}
    (h : objectCall c l ms = .list vs size) : (preorderItems vs).Sublist (preorderMembers ms) := by
  obtain ⟨n, hl, -⟩ := objectCall_list h
  refine List.Sublist.trans ?_ (preorder_member (listOf_items hl).1)
  rw [preorder]
  exact List.sublist_cons_self _ _

/-- What is pending in a map. -/
def preorderPending : Option Value → List Value
  | .none => []
  | .some v => preorder v

mutual
theorem visits_deserialize : ∀ {v i r t}, LDeserialize impls v i r t → (visits t).Sublist (preorder v)
  | _, _, _, _, .ignore h => List.nil_sublist _
  | _, _, _, _, .call h g => visits_visit g
termination_by structural x0 x1 x2 x3 h => h
theorem visits_visit : ∀ {v m V r t}, LVisit impls v m V r t → (visits t).Sublist (preorder v)
  | _, _, _, _, _, .none => by rw [preorder] <;> simp [visits]
  | _, _, _, _, _, .some hn g => visits_visitSome g
  | _, _, _, _, _, .structObject g => by
    have ih := visits_visitMap g
    rw [visits, visits_append, visits, visits, List.append_nil, preorder]; exact ih.cons_cons _
  | _, _, _, _, _, .struct hn g => visits_visitAny g
  | _, _, _, _, _, .any h1 h2 g => visits_visitAny g
termination_by structural x0 x1 x2 x3 x4 h => h
theorem visits_visitAny : ∀ {v V r t}, LVisitAny impls v V r t → (visits t).Sublist (preorder v)
  | v, _, _, _, .scalar h => by
    obtain ⟨l, hl⟩ := preorder_head v
    rw [hl]; exact (List.nil_sublist _).cons_cons _
  | _, _, _, _, .array g => by
    have ih := visits_arrayRun g
    rw [visits, visits_append, visits, visits, List.append_nil, preorder]; exact ih.cons_cons _
  | _, _, _, _, .object h g => by
    have ih := visits_visitMap g
    rw [visits, visits_append, visits, visits, List.append_nil, preorder]; exact ih.cons_cons _
  | _, _, _, _, .boxed h => by rw [visits, visits, visits, preorder]; exact (List.nil_sublist _).cons_cons _
  | _, _, _, _, .fail h => by rw [visits, visits, visits, preorder]; exact (List.nil_sublist _).cons_cons _
  | _, _, _, _, .list h g => by
    have ih := visits_listRun g
    rw [visits, visits_append, visits, visits, List.append_nil, preorder]; exact (ih.trans (preorder_list h)).cons_cons _
termination_by structural x0 x1 x2 x3 h => h
theorem visits_visitSome : ∀ {v s r t}, LVisitSome impls v s r t → (visits t).Sublist (preorder v)
  | _, _, _, _, .deserialize g => visits_deserialize g
  | _, _, _, _, .finish => List.nil_sublist _
termination_by structural x0 x1 x2 x3 h => h
theorem visits_visitMap : ∀ {s ms V r t}, LVisitMap impls s ms V r t → (visits t).Sublist (preorderMembers ms)
  | _, _, _, _, _, .mk g => by
    have ih := visits_mapRun g
    exact ih
termination_by structural x0 x1 x2 x3 x4 h => h
theorem visits_arrayRun : ∀ {seq vs n h r rest count t}, LArrayRun impls seq vs n h r rest count t →
    (visits t).Sublist (preorderItems vs)
  | _, _, _, _, _, _, _, _, .finish h => List.nil_sublist _
  | _, _, _, _, _, _, _, _, .element h d g => by
    have ihd := visits_deserialize d
    have ih := visits_arrayRun g
    rw [visits, visits_append, preorderItems]
    exact ihd.append ih
  | _, _, _, _, _, _, _, _, .exhausted h g => by
    have ih := visits_arrayRun g
    rw [visits]; exact ih
termination_by structural x0 x1 x2 x3 x4 x5 x6 x7 h => h
theorem visits_listRun : ∀ {size seq vs n h r count t}, LListRun impls size seq vs n h r count t →
    (visits t).Sublist (preorderItems vs)
  | _, _, _, _, _, _, _, _, .finish h => List.nil_sublist _
  | _, _, _, _, _, _, _, _, .element h hl d g => by
    have ihd := visits_deserialize d
    have ih := visits_listRun g
    rw [visits, visits_append, preorderItems]
    exact ihd.append ih
  | _, _, _, _, _, _, _, _, .error h hl d g => by
    have ihd := visits_deserialize d
    have ih := visits_listRun g
    rw [visits, visits_append, preorderItems]
    exact ihd.append ih
  | _, _, _, _, _, _, _, _, .exhausted h hl g => by
    have ih := visits_listRun g
    rw [visits]; exact ih
  | _, _, _, _, _, _, _, _, .full h hl g => by
    have ih := visits_listRun g
    rw [visits]; exact ih
termination_by structural x0 x1 x2 x3 x4 x5 x6 x7 h => h
theorem visits_mapRun : ∀ {s map ms p n h r rest count t}, LMapRun impls s map ms p n h r rest count t →
    (visits t).Sublist (preorderPending p ++ preorderMembers ms)
  | _, _, _, _, _, _, _, _, _, _, .finish h => List.nil_sublist _
  | _, _, _, _, _, _, _, _, _, _, .key h g => by
    have ih := visits_mapRun g
    rw [visits, preorderMembers]
    exact ih.trans (List.sublist_append_right _ _)
  | _, _, _, _, _, _, _, _, _, _, .exhausted h g => by
    have ih := visits_mapRun g
    rw [visits]; exact ih
  | _, _, _, _, _, _, _, _, _, _, .value h d g => by
    have ihd := visits_deserialize d
    have ih := visits_mapRun g
    rw [visits, visits_append]
    exact ihd.append ih
termination_by structural x0 x1 x2 x3 x4 x5 x6 x7 x8 x9 h => h
end

/-- **C83** What `from_slice` hands to the type and the types it asks for are parts of the message, each at most once, in the
order in which they are written: the log of visits is a subsequence of the message in preorder. -/
theorem C83_visits {w : Bytes} {i : ι} {r : Res α} {t : List Call} (h : LFromSlice impls w i r t) {v : Value}
    (hw : deserialize w = .ok (.value v)) : (visits t).Sublist (preorder v) := by
  cases h with
  | ignore | methodCall | methodReturn | parsing => exact List.nil_sublist _
  | struct hw' _ g => rw [hw] at hw'; cases hw'; exact visits_visit g
  | any hw' _ _ g => rw [hw] at hw'; cases hw'; exact visits_visitAny g

/-- **C83** Otherwise nothing happens at all. -/
theorem C83_nothing {w : Bytes} {i : ι} {r : Res α} {t : List Call} (h : LFromSlice impls w i r t)
    (hw : ∀ v, deserialize w ≠ .ok (.value v)) : t = [] := by
  cases h with
  | ignore | methodCall | methodReturn | parsing => rfl
  | struct hw' _ g => exact absurd hw' (hw _)
  | any hw' _ _ g => exact absurd hw' (hw _)

/-! ## How often something is asked -/

omit [Platform] [FloatLib] [TextLib] in
theorem preorder_pos (v : Value) : 1 ≤ (preorder v).length := by
  obtain ⟨l, hl⟩ := preorder_head v
  rw [hl]; simp

/-- The answers so far: all good, or the last one was not. -/
def Answers (h : List (Res (Option α))) : Prop := (∀ a ∈ h, Got a) ∨ ∃ h' a, h = h' ++ [a] ∧ ¬ Got a

omit [Platform] [FloatLib] [TextLib] in
theorem answers_snoc {h : List (Res (Option α))} (hh : ∀ a ∈ h, Got a) (a : Res (Option α)) : Answers (h ++ [a]) := by
  by_cases ha : Got a
  · refine .inl fun b hb => ?_
    rcases List.mem_append.mp hb with hb | hb
    · exact hh b hb
    · rw [List.mem_singleton.mp hb]; exact ha
  · exact .inr ⟨h, a, rfl, ha⟩

/-- A strategy that returns after an error or the end. -/
def SeqOrderly (seq : List (Res (Option α)) → SeqAction ι α) : Prop := ∀ h a, ¬ Got a → ∃ r, seq (h ++ [a]) = .finish r
/-- The same for maps. -/
def MapOrderly (map : List (Res (Option α)) → MapAction ι α) : Prop := ∀ h a, ¬ Got a → ∃ r, map (h ++ [a]) = .finish r

omit [Platform] [FloatLib] [TextLib] in
theorem seq_got {seq : List (Res (Option α)) → SeqAction ι α} (hs : SeqOrderly seq) {h : List (Res (Option α))} {i : ι}
    (hh : Answers h) (hn : seq h = .next i) : ∀ a ∈ h, Got a := by
  rcases hh with hh | ⟨h', a, rfl, ha⟩
  · exact hh
  · obtain ⟨r, hr⟩ := hs h' a ha
    rw [hn] at hr; cases hr

omit [Platform] [FloatLib] [TextLib] in
theorem map_got {map : List (Res (Option α)) → MapAction ι α} (hs : MapOrderly map) {h : List (Res (Option α))}
    (hh : Answers h) (hn : ∀ r, map h ≠ .finish r) : ∀ a ∈ h, Got a := by
  rcases hh with hh | ⟨h', a, rfl, ha⟩
  · exact hh
  · obtain ⟨r, hr⟩ := hs h' a ha
    exact absurd hr (hn r)

omit [Platform] [FloatLib] [TextLib] in
theorem not_got_none : ¬ Got (.ok .none : Res (Option α)) := by
  intro h; obtain ⟨a, ha⟩ := h; cases ha

theorem arrayRun_stop {seq : List (Res (Option α)) → SeqAction ι α} (hs : SeqOrderly seq) {vs n h r rest count t}
    (g : LArrayRun impls seq vs n (h ++ [.ok .none]) r rest count t) : t = [] := by
  obtain ⟨r', hr⟩ := hs h _ (not_got_none (α := α))
  generalize h ++ [.ok .none] = h' at g hr
  cases g with
  | finish => rfl
  | element h2 => rw [hr] at h2; cases h2
  | exhausted h2 => rw [hr] at h2; cases h2

theorem listRun_stop {seq : List (Res (Option α)) → SeqAction ι α} (hs : SeqOrderly seq) {size vs n h r count t}
    (g : LListRun impls size seq vs n (h ++ [.ok .none]) r count t) : t = [] := by
  obtain ⟨r', hr⟩ := hs h _ (not_got_none (α := α))
  generalize h ++ [.ok .none] = h' at g hr
  cases g with
  | finish => rfl
  | element h2 => rw [hr] at h2; cases h2
  | error h2 => rw [hr] at h2; cases h2
  | exhausted h2 => rw [hr] at h2; cases h2
  | full h2 => rw [hr] at h2; cases h2

theorem mapRun_stop {map : List (Res (Option α)) → MapAction ι α} (hs : MapOrderly map) {s ms p n h r rest count t}
    (g : LMapRun impls s map ms p n (h ++ [.ok .none]) r rest count t) : t = [] := by
  obtain ⟨r', hr⟩ := hs h _ (not_got_none (α := α))
  generalize h ++ [.ok .none] = h' at g hr
  cases g with
  | finish => rfl
  | key h2 => rw [hr] at h2; cases h2
  | exhausted h2 => rw [hr] at h2; cases h2
  | value h2 => rw [hr] at h2; cases h2

/-- What is pending in a map may still be asked for. -/
def pendingRequests : Option Value → Nat
  | .none => 0
  | .some v => 3 * (preorder v).length - 1

mutual
theorem requests_deserialize (ho : Orderly impls) : ∀ {v i r t}, LDeserialize impls v i r t → requests t + 2 ≤ 3 * (preorder v).length
  | v, _, _, _, .ignore h => by have := preorder_pos v; simp only [requests]; omega
  | _, _, _, _, .call h g => requests_visit ho h g
termination_by structural x0 x1 x2 x3 h => h
theorem requests_visit (ho : Orderly impls) : ∀ {v i m V f r t}, impls i = .call m V f → LVisit impls v m V r t →
    requests t + 2 ≤ 3 * (preorder v).length
  | _, _, _, _, _, _, _, hi, .none => by have := preorder_pos .null; simp only [requests]; omega
  | _, _, _, _, _, _, _, hi, .some hn g => requests_visitSome ho g
  | _, _, _, _, _, _, _, hi, .structObject g => by
    have ih := requests_visitMap ho (ho.map hi _) g
    rw [requests, requests_append, requests, requests, preorder, List.length_cons]; omega
  | _, _, _, _, _, _, _, hi, .struct hn g => requests_visitAny ho hi g
  | _, _, _, _, _, _, _, hi, .any h1 h2 g => requests_visitAny ho hi g
termination_by structural x0 x1 x2 x3 x4 x5 x6 x7 h => h
theorem requests_visitAny (ho : Orderly impls) : ∀ {v i m V f r t}, impls i = .call m V f → LVisitAny impls v V r t →
    requests t + 2 ≤ 3 * (preorder v).length
  | v, _, _, _, _, _, _, hi, .scalar h => by have := preorder_pos v; simp only [requests]; omega
  | _, _, _, _, _, _, _, hi, .array g => by
    have ih := requests_arrayRun ho (ho.seq hi) (.inl (by simp)) g
    rw [requests, requests_append, requests, requests, preorder, List.length_cons]; omega
  | _, _, _, _, _, _, _, hi, .object h g => by
    have ih := requests_visitMap ho (ho.map hi _) g
    rw [requests, requests_append, requests, requests, preorder, List.length_cons]; omega
  | _, _, _, _, _, _, _, hi, .boxed h => by simp only [requests, preorder, List.length_cons]; omega
  | _, _, _, _, _, _, _, hi, .fail h => by simp only [requests, preorder, List.length_cons]; omega
  | _, _, _, _, _, _, _, hi, .list h g => by
    have ih := requests_listRun ho (ho.seq hi) (.inl (by simp)) g
    have hl := (preorder_list h).length_le
    rw [requests, requests_append, requests, requests, preorder, List.length_cons]; omega
termination_by structural x0 x1 x2 x3 x4 x5 x6 x7 h => h
theorem requests_visitSome (ho : Orderly impls) : ∀ {v s r t}, LVisitSome impls v s r t → requests t + 2 ≤ 3 * (preorder v).length
  | _, _, _, _, .deserialize g => requests_deserialize ho g
  | v, _, _, _, .finish => by have := preorder_pos v; simp only [requests]; omega
termination_by structural x0 x1 x2 x3 h => h
theorem requests_visitMap (ho : Orderly impls) : ∀ {s ms V r t}, MapOrderly (V.map ms.length) → LVisitMap impls s ms V r t →
    requests t ≤ 3 * (preorderMembers ms).length + 1
  | _, _, _, _, _, hs, .mk g => by
    have ih := requests_mapRun ho hs (.inl (by simp)) g
    simpa [pendingRequests] using ih
termination_by structural x0 x1 x2 x3 x4 x5 h => h
theorem requests_arrayRun (ho : Orderly impls) : ∀ {seq vs n h r rest count t}, SeqOrderly seq → Answers h →
    LArrayRun impls seq vs n h r rest count t → requests t ≤ 3 * (preorderItems vs).length + 1
  | _, _, _, _, _, _, _, _, hs, hh, .finish h => by simp [requests]
  | _, _, _, _, _, _, _, _, hs, hh, .element h d g => by
    have ihd := requests_deserialize ho d
    have ih := requests_arrayRun ho hs (answers_snoc (seq_got hs hh h) _) g
    rw [requests, requests_append, preorderItems, List.length_append]; omega
  | _, _, _, _, _, _, _, _, hs, hh, .exhausted h g => by
    have := arrayRun_stop hs g
    subst this
    simp only [requests]; omega
termination_by structural x0 x1 x2 x3 x4 x5 x6 x7 x8 x9 h => h
theorem requests_listRun (ho : Orderly impls) : ∀ {size seq vs n h r count t}, SeqOrderly seq → Answers h →
    LListRun impls size seq vs n h r count t → requests t ≤ 3 * (preorderItems vs).length + 1
  | _, _, _, _, _, _, _, _, hs, hh, .finish h => by simp [requests]
  | _, _, _, _, _, _, _, _, hs, hh, .element h hl d g => by
    have ihd := requests_deserialize ho d
    have ih := requests_listRun ho hs (answers_snoc (seq_got hs hh h) _) g
    rw [requests, requests_append, preorderItems, List.length_append]; omega
  | _, _, _, _, _, _, _, _, hs, hh, .error h hl d g => by
    have ihd := requests_deserialize ho d
    have ih := requests_listRun ho hs (answers_snoc (seq_got hs hh h) _) g
    rw [requests, requests_append, preorderItems, List.length_append]; omega
  | _, _, _, _, _, _, _, _, hs, hh, .exhausted h hl g => by
    have := listRun_stop hs g
    subst this
    simp only [requests]; omega
  | _, _, _, _, _, _, _, _, hs, hh, .full h hl g => by
    have := listRun_stop hs g
    subst this
    simp only [requests]; omega
termination_by structural x0 x1 x2 x3 x4 x5 x6 x7 x8 x9 h => h
theorem requests_mapRun (ho : Orderly impls) : ∀ {s map ms p n h r rest count t}, MapOrderly map → Answers h →
    LMapRun impls s map ms p n h r rest count t → requests t ≤ 3 * (preorderMembers ms).length + 1 + pendingRequests p
  | _, _, _, _, _, _, _, _, _, _, hs, hh, .finish h => by simp [requests]
  | _, _, _, _, _, _, _, _, _, _, hs, hh, @LMapRun.key _ _ _ _ _ _ _ _ k v _ _ _ _ _ _ _ _ _ h g => by
    have ih := requests_mapRun ho hs (answers_snoc (map_got hs hh (by rw [h]; simp)) _) g
    have := preorder_pos v
    rw [requests, preorderMembers, List.length_append]
    simp only [pendingRequests] at ih
    omega
  | _, _, _, _, _, _, _, _, _, _, hs, hh, .exhausted h g => by
    have := mapRun_stop hs g
    subst this
    simp only [requests]; omega
  | _, _, _, _, _, _, _, _, _, _, hs, hh, .value h d g => by
    have ihd := requests_deserialize ho d
    have ih := requests_mapRun ho hs (answers_snoc (map_got hs hh (by rw [h]; simp)) _) g
    rw [requests, requests_append]
    simp only [pendingRequests] at ih ⊢
    omega
termination_by structural x0 x1 x2 x3 x4 x5 x6 x7 x8 x9 x10 x11 h => h
end

/-- **C83** Orderly types ask at most three times as often for an element, key or value as there are values in the message. -/
theorem C83_requests (ho : Orderly impls) {w : Bytes} {i : ι} {r : Res α} {t : List Call} (h : LFromSlice impls w i r t)
    {v : Value} (hw : deserialize w = .ok (.value v)) : requests t ≤ 3 * (preorder v).length := by
  have := preorder_pos v
  cases h with
  | ignore | methodCall | methodReturn | parsing => exact Nat.zero_le _
  | struct hw' hi g => rw [hw] at hw'; cases hw'; have := requests_visit ho hi g; omega
  | any hw' hi _ g => rw [hw] at hw'; cases hw'; have := requests_visitAny ho hi g; omega

/-! ## Nothing is left out -/

/-- No object in these values is a boxed primitive or a generic list. -/
def AllPlain (vs : List Value) : Prop := ∀ c l ms, .object c l ms ∈ vs → PlainObject c l

omit [Platform] [FloatLib] [TextLib] in
theorem AllPlain.left {a b : List Value} (h : AllPlain (a ++ b)) : AllPlain a := fun c l ms hm => h c l ms (List.mem_append_left _ hm)
omit [Platform] [FloatLib] [TextLib] in
theorem AllPlain.right {a b : List Value} (h : AllPlain (a ++ b)) : AllPlain b := fun c l ms hm => h c l ms (List.mem_append_right _ hm)
omit [Platform] [FloatLib] [TextLib] in
theorem AllPlain.tail {a : Value} {b : List Value} (h : AllPlain (a :: b)) : AllPlain b := fun c l ms hm => h c l ms (List.mem_cons_of_mem _ hm)

omit [Platform] [FloatLib] [TextLib] in
theorem after_ok {f : Res α → Res α} (hf : ∀ e, ∃ e', f (.error e) = .error e') {r : Res α} {x : α} (h : conclude f r = .ok x) :
    ∃ y, r = .ok y := by
  cases r with
  | ok y => exact ⟨y, rfl⟩
  | error e => obtain ⟨e', he⟩ := hf e; unfold conclude at h; rw [he] at h; cases h

omit [Platform] [FloatLib] in
theorem arrayEnd_ok {r : Res α} {rest count : Nat} {x : α} (h : arrayEnd r rest count = .ok x) : r = .ok x ∧ rest = 0 := by
  unfold arrayEnd at h
  cases r with
  | error e => cases h
  | ok a => rcases ite_cases h with ⟨hr, e⟩ | ⟨_, e⟩ <;> cases e; exact ⟨rfl, hr⟩

omit [Platform] [FloatLib] in
theorem mapEnd_ok {r : Res α} {rest count : Nat} {x : α} (h : mapEnd r rest count = .ok x) : r = .ok x ∧ rest = 0 := by
  unfold mapEnd at h
  cases r with
  | error e => cases h
  | ok a => rcases ite_cases h with ⟨hr, e⟩ | ⟨_, e⟩ <;> cases e; exact ⟨rfl, hr⟩

/-- A strategy that passes on errors. -/
def SeqStrict (seq : List (Res (Option α)) → SeqAction ι α) : Prop := ∀ h e, ∃ e', seq (h ++ [.error e]) = .finish (.error e')

/-- The same for maps, and every key is followed by its value. -/
structure MapStrict (map : List (Res (Option α)) → MapAction ι α) : Prop where
  error : ∀ h e, ∃ e', map (h ++ [.error e]) = .finish (.error e')
  value : ∀ h j a, map h = .key j → (∃ k, map (h ++ [.ok (some a)]) = .value k) ∨ ∃ e, map (h ++ [.ok (some a)]) = .finish (.error e)

theorem arrayRun_error {seq : List (Res (Option α)) → SeqAction ι α} (hs : SeqStrict seq) {vs n h e r rest count t}
    (g : LArrayRun impls seq vs n (h ++ [.error e]) r rest count t) : ∃ e', r = .error e' := by
  obtain ⟨e', hr⟩ := hs h e
  generalize h ++ [.error e] = h' at g hr
  cases g with
  | finish h2 => rw [hr] at h2; cases h2; exact ⟨_, rfl⟩
  | element h2 => rw [hr] at h2; cases h2
  | exhausted h2 => rw [hr] at h2; cases h2

theorem mapRun_error {map : List (Res (Option α)) → MapAction ι α} (hs : MapStrict map) {s ms p n h e r rest count t}
    (g : LMapRun impls s map ms p n (h ++ [.error e]) r rest count t) : ∃ e', r = .error e' := by
  obtain ⟨e', hr⟩ := hs.error h e
  generalize h ++ [.error e] = h' at g hr
  cases g with
  | finish h2 => rw [hr] at h2; cases h2; exact ⟨_, rfl⟩
  | key h2 => rw [hr] at h2; cases h2
  | exhausted h2 => rw [hr] at h2; cases h2
  | value h2 => rw [hr] at h2; cases h2

/-- If a value is pending it is asked for, unless there is an error. -/
def Due (map : List (Res (Option α)) → MapAction ι α) (h : List (Res (Option α))) (p : Option Value) : Prop :=
  p = none ∨ (∃ k, map h = .value k) ∨ ∃ e, map h = .finish (.error e)

mutual
theorem all_deserialize (ht : Thorough impls) : ∀ {v i r t}, LDeserialize impls v i r t → ∀ x, r = .ok x → AllPlain (preorder v) →
    visits t = preorder v
  | _, _, _, _, .ignore h, x, hr, hp => absurd h (ht.calls _ _)
  | _, _, _, _, .call h g, x, hr, hp => by
    obtain ⟨y, hy⟩ := after_ok (ht.after h) hr
    exact all_visit ht h g y hy hp
termination_by structural x0 x1 x2 x3 h => h
theorem all_visit (ht : Thorough impls) : ∀ {v i m V f r t}, impls i = .call m V f → LVisit impls v m V r t → ∀ x, r = .ok x →
    AllPlain (preorder v) → visits t = preorder v
  | _, _, _, _, _, _, _, hi, .none, x, hr, hp => by rw [preorder] <;> simp [visits]
  | _, _, _, _, _, _, _, hi, .some hn g, x, hr, hp => all_visitSome ht (ht.option hi) g x hr hp
  | _, _, _, _, _, _, _, hi, .structObject g, x, hr, hp => by
    have ih := all_visitMap ht ⟨ht.map hi _, ht.value hi _⟩ g x hr
    rw [preorder] at hp ⊢
    rw [visits, visits_append, visits, visits, List.append_nil, ih hp.tail]
  | _, _, _, _, _, _, _, hi, .struct hn g, x, hr, hp => all_visitAny ht hi g x hr hp
  | _, _, _, _, _, _, _, hi, .any h1 h2 g, x, hr, hp => all_visitAny ht hi g x hr hp
termination_by structural x0 x1 x2 x3 x4 x5 x6 x7 h => h
theorem all_visitAny (ht : Thorough impls) : ∀ {v i m V f r t}, impls i = .call m V f → LVisitAny impls v V r t → ∀ x, r = .ok x →
    AllPlain (preorder v) → visits t = preorder v
  | v, _, _, _, _, _, _, hi, .scalar h, x, hr, hp => by
    cases v <;> first | (cases h; done) | (rw [preorder] <;> simp [visits])
  | _, _, _, _, _, _, _, hi, .array g, x, hr, hp => by
    obtain ⟨h1, h2⟩ := arrayEnd_ok hr
    have ih := all_arrayRun ht (ht.seq hi) g x h1
    rw [preorder] at hp ⊢
    have ih := ih hp.tail
    rw [List.eq_nil_of_length_eq_zero h2, preorderItems, List.append_nil] at ih
    rw [visits, visits_append, visits, visits, List.append_nil, ih]
  | _, _, _, _, _, _, _, hi, .object h g, x, hr, hp => by
    have ih := all_visitMap ht ⟨ht.map hi _, ht.value hi _⟩ g x hr
    rw [preorder] at hp ⊢
    rw [visits, visits_append, visits, visits, List.append_nil, ih hp.tail]
  | _, _, _, _, _, _, _, hi, .boxed h, x, hr, hp => by
    rw [preorder] at hp
    rw [objectCall_plain _ (hp _ _ _ List.mem_cons_self)] at h
    cases h
  | _, _, _, _, _, _, _, hi, .fail h, x, hr, hp => by cases hr
  | _, _, _, _, _, _, _, hi, .list h g, x, hr, hp => by
    rw [preorder] at hp
    rw [objectCall_plain _ (hp _ _ _ List.mem_cons_self)] at h
    cases h
termination_by structural x0 x1 x2 x3 x4 x5 x6 x7 h => h
theorem all_visitSome (ht : Thorough impls) : ∀ {v s r t},
    ((∃ j g, s = .deserialize j g ∧ ∀ e, ∃ e', g (.error e) = .error e') ∨ ∃ e, s = .finish (.error e)) →
    LVisitSome impls v s r t → ∀ x, r = .ok x → AllPlain (preorder v) → visits t = preorder v
  | _, _, _, _, hs, .deserialize g, x, hr, hp => by
    have ih := all_deserialize ht g
    rcases hs with ⟨j, f, hs, hf⟩ | ⟨e, hs⟩
    · cases hs
      obtain ⟨y, hy⟩ := after_ok hf hr
      exact ih y hy hp
    · cases hs
  | _, _, _, _, hs, .finish, x, hr, hp => by
    rcases hs with ⟨j, f, hs, hf⟩ | ⟨e, hs⟩
    · cases hs
    · cases hs; cases hr
termination_by structural x0 x1 x2 x3 x4 h => h
theorem all_visitMap (ht : Thorough impls) : ∀ {s ms V r t}, MapStrict (V.map ms.length) → LVisitMap impls s ms V r t → ∀ x, r = .ok x →
    AllPlain (preorderMembers ms) → visits t = preorderMembers ms
  | _, _, _, _, _, hs, .mk g, x, hr, hp => by
    obtain ⟨h1, h2⟩ := mapEnd_ok hr
    have ih := all_mapRun ht hs (.inl rfl) g x h1 hp
    rw [List.eq_nil_of_length_eq_zero h2, preorderMembers, List.append_nil] at ih
    exact ih
termination_by structural x0 x1 x2 x3 x4 x5 h => h
theorem all_arrayRun (ht : Thorough impls) : ∀ {seq vs n h r rest count t}, SeqStrict seq →
    LArrayRun impls seq vs n h r rest count t → ∀ x, r = .ok x → AllPlain (preorderItems vs) →
    visits t ++ preorderItems rest = preorderItems vs
  | _, _, _, _, _, _, _, _, hs, .finish h, x, hr, hp => rfl
  | _, _, _, _, _, _, _, _, hs, @LArrayRun.element _ _ _ _ _ _ _ _ _ _ _ _ a _ _ _ _ _ h d g, x, hr, hp => by
    have ihd := all_deserialize ht d
    have ih := all_arrayRun ht hs g x hr
    cases a with
    | error e => obtain ⟨e', he⟩ := arrayRun_error hs g; rw [hr] at he; cases he
    | ok y =>
      have ihd := ihd y rfl
      rw [preorderItems] at hp ⊢
      rw [visits, visits_append, List.append_assoc, ih hp.right, ihd hp.left]
  | _, _, _, _, _, _, _, _, hs, .exhausted h g, x, hr, hp => by
    have ih := all_arrayRun ht hs g x hr hp
    rw [visits]; exact ih
termination_by structural x0 x1 x2 x3 x4 x5 x6 x7 x8 h => h
theorem all_mapRun (ht : Thorough impls) : ∀ {s map ms p n h r rest count t}, MapStrict map → Due map h p →
    LMapRun impls s map ms p n h r rest count t → ∀ x, r = .ok x → AllPlain (preorderPending p ++ preorderMembers ms) →
    visits t ++ preorderMembers rest = preorderPending p ++ preorderMembers ms
  | _, _, _, _, _, _, _, _, _, _, hs, hd, .finish h, x, hr, hp => by
    rcases hd with hd | ⟨k, hd⟩ | ⟨e, hd⟩
    · subst hd; rfl
    · rw [h] at hd; cases hd
    · rw [h, hr] at hd; cases hd
  | _, map, _, _, _, h', _, _, _, _, hs, hd, @LMapRun.key _ _ _ _ _ _ s _ k v _ _ _ _ i _ _ _ _ h g, x, hr, hp => by
    have due : Due map (h' ++ [(deserializeKey s k (impls i)).map .some]) (.some v) := by
      cases (deserializeKey s k (impls i)) with
      | ok a => exact .inr (hs.value _ _ a h)
      | error e => exact .inr (.inr (hs.error _ e))
    have ih := all_mapRun ht hs due g x hr
    rcases hd with hd | ⟨k, hd⟩ | ⟨e, hd⟩
    · subst hd
      rw [preorderMembers] at hp ⊢
      rw [visits]
      exact ih hp
    · rw [h] at hd; cases hd
    · rw [h] at hd; cases hd
  | _, _, _, _, _, _, _, _, _, _, hs, hd, .exhausted h g, x, hr, hp => by
    have ih := fun hd => all_mapRun ht hs hd g x hr hp
    rcases hd with hd | ⟨k, hd⟩ | ⟨e, hd⟩
    · rw [visits]
      exact ih (.inl hd)
    · rw [h] at hd; cases hd
    · rw [h] at hd; cases hd
  | _, _, _, _, _, _, _, _, _, _, hs, hd, @LMapRun.value _ _ _ _ _ _ _ _ _ _ _ _ _ a _ _ _ _ _ h d g, x, hr, hp => by
    have ihd := all_deserialize ht d
    have ih := all_mapRun ht hs (.inl rfl) g x hr
    cases a with
    | error e => obtain ⟨e', he⟩ := mapRun_error hs g; rw [hr] at he; cases he
    | ok y =>
      have ihd := ihd y rfl
      rw [preorderPending] at hp ⊢
      have ih := ih hp.right
      rw [preorderPending, List.nil_append] at ih
      rw [visits, visits_append, List.append_assoc, ih, ihd hp.left]
termination_by structural x0 x1 x2 x3 x4 x5 x6 x7 x8 x9 x10 x11 h => h
end

/-- **C83** If a type passes on every error and leaves no value out, then a result means that it has been handed the whole
message: unless there are boxed primitives or generic lists in it, the log of visits is the message in preorder. -/
theorem C83_everything (ht : Thorough impls) {w : Bytes} {i : ι} {x : α} {t : List Call} (h : LFromSlice impls w i (.ok x) t)
    {v : Value} (hw : deserialize w = .ok (.value v)) (hp : ∀ c l ms, .object c l ms ∈ preorder v → PlainObject c l) :
    visits t = preorder v := by
  generalize hr : (.ok x : Res α) = r at h
  cases h with
  | ignore _ h => exact absurd h (ht.calls _ _)
  | methodCall h => rw [hw] at h; cases h
  | methodReturn h => rw [hw] at h; cases h
  | parsing h => rw [hw] at h; cases h
  | struct hw' hi g =>
    rw [hw] at hw'; cases hw'
    obtain ⟨y, hy⟩ := after_ok (ht.after hi) hr.symm
    exact all_visit ht hi g y hy hp
  | any hw' hi _ g =>
    rw [hw] at hw'; cases hw'
    obtain ⟨y, hy⟩ := after_ok (ht.after hi) hr.symm
    exact all_visitAny ht hi g y hy hp

/-! ## The standard and derived types -/

omit [Platform] [FloatLib] in
theorem seqOf_error (T : RTy) (h : List (Res (Option Dyn))) (e : Str) : ∃ e', seqOf T (h ++ [.error e]) = .finish (.error e') := by
  unfold seqOf
  split
  all_goals first
    | exact ⟨e, by unfold seqAll; rw [List.getLast?_concat]⟩
    | exact ⟨e, by unfold seqEach; rw [List.getLast?_concat]⟩
    | exact ⟨_, rfl⟩

omit [Platform] [FloatLib] in
theorem mapOf_error (T : RTy) (h : List (Res (Option Dyn))) (e : Str) : ∃ e', mapOf T (h ++ [.error e]) = .finish (.error e') := by
  unfold mapOf
  split
  all_goals first
    | exact ⟨e, by unfold mapAll; rw [List.getLast?_concat]⟩
    | exact ⟨e, by unfold mapFields; rw [List.getLast?_concat]⟩
    | exact ⟨_, rfl⟩

omit [Platform] [FloatLib] in
theorem mapAll_next (K T : RTy) (done : List (Dyn × Dyn) → Dyn) (h : List (Res (Option Dyn))) {j : Goal} (a : Dyn)
    (hk : mapAll K T done h = .key j) : ∃ k, mapAll K T done (h ++ [.ok (some a)]) = .value k := by
  have even : h.length % 2 = 0 := by
    by_cases he : h.length % 2 = 0
    · exact he
    · unfold mapAll at hk
      simp only [if_neg he] at hk
      split at hk <;> cases hk
  refine ⟨.ty T, ?_⟩
  unfold mapAll
  rw [List.getLast?_concat]
  simp only [List.length_append, List.length_singleton]
  rw [if_neg (by omega)]

omit [Platform] [FloatLib] in
theorem mapFields_next (fs : List (Str × RTy)) (h : List (Res (Option Dyn))) {j : Goal} (a : Dyn)
    (hk : mapFields fs h = .key j) : (∃ k, mapFields fs (h ++ [.ok (some a)]) = .value k) ∨
      ∃ e, mapFields fs (h ++ [.ok (some a)]) = .finish (.error e) := by
  have even : h.length % 2 = 0 := by
    unfold mapFields at hk
    split at hk
    · rename_i hl; rw [List.getLast?_eq_none_iff.mp hl]; rfl
    · rcases ite_cases hk with ⟨e, _⟩ | ⟨_, e⟩
      · exact e
      · split at e
        · rcases ite_cases e with ⟨_, e⟩ | ⟨_, e⟩
          · cases e
          · split at e <;> cases e
        · cases e
    · cases hk
    · cases hk
  unfold mapFields
  rw [List.getLast?_concat]
  simp only [List.length_append, List.length_singleton]
  rw [if_neg (by omega)]
  cases a with
  | str k =>
    simp only
    generalize (fieldsFound (entriesOf (gathered (h ++ [.ok (some (.str k))])))).any _ = b
    cases b with
    | true => exact .inr ⟨_, rfl⟩
    | false => cases fieldTypeR fs k <;> exact .inl ⟨_, rfl⟩
  | _ => exact .inl ⟨_, rfl⟩

omit [Platform] [FloatLib] in
theorem mapBoxed_error (x : Str) (T : RTy) (n : Nat) (h : List (Res (Option Dyn))) (e : Str) :
    ∃ e', mapBoxed x T n (h ++ [.error e]) = .finish (.error e') := by
  unfold mapBoxed
  by_cases hn : n = 1
  · simp only [if_pos hn]
    match h with
    | [] => exact ⟨_, rfl⟩
    | [.ok (some _)] => exact ⟨_, rfl⟩
    | [.ok none] => exact ⟨_, rfl⟩
    | [.error _] => exact ⟨_, rfl⟩
    | [.ok (some _), .ok (some _)] => exact ⟨_, rfl⟩
    | [.ok (some _), .ok none] => exact ⟨_, rfl⟩
    | [.ok (some _), .error _] => exact ⟨_, rfl⟩
    | [.ok none, _] => exact ⟨_, rfl⟩
    | [.error _, _] => exact ⟨_, rfl⟩
    | a :: b :: c :: l =>
      refine ⟨e, ?_⟩
      split
      all_goals first
        | (rename_i hh; have := congrArg List.length hh; simp at this; done)
        | rw [List.getLast?_concat]
  · simp only [if_neg hn]; exact ⟨_, rfl⟩

/-- The standard and derived types are thorough. -/
theorem rust_thorough : Thorough rust where
  calls := by intro i r; cases i <;> exact fun e => by cases e
  after := by intro i m V f e; cases i <;> cases e <;> exact fun e => ⟨e, rfl⟩
  seq := by
    intro i m V f e h x
    cases i <;> cases e
    · exact seqOf_error _ h x
    · exact ⟨_, rfl⟩
    · exact ⟨_, rfl⟩
  map := by
    intro i m V f e n h x
    cases i <;> cases e
    · exact mapOf_error _ h x
    · exact ⟨_, rfl⟩
    · exact mapBoxed_error _ _ n h x
  value := by
    intro i m V f e n h j a hk
    cases i with
    | ty T =>
      cases e
      change mapOf T h = _ at hk
      change (∃ k, mapOf T (h ++ [.ok (some a)]) = .value k) ∨ ∃ e, mapOf T (h ++ [.ok (some a)]) = .finish (.error e)
      cases T with
      | map T => exact .inl (mapAll_next .string T (fun es => .map (es.map fun (e : Dyn × Dyn) => (keyOf e.1, e.2))) h a hk)
      | struct name fs => exact mapFields_next fs h a hk
      | ignored => exact .inl (mapAll_next .ignored .ignored (fun _ => .ignored) h a hk)
      | any => exact .inl (mapAll_next .any .any (fun es => .map (es.map fun (e : Dyn × Dyn) => (keyOf e.1, e.2))) h a hk)
      | _ => cases hk
    | field fs => cases e; cases hk
    | boxed x T =>
      cases e
      change mapBoxed x T n h = _ at hk
      change (∃ k, mapBoxed x T n (h ++ [.ok (some a)]) = .value k) ∨ ∃ e, mapBoxed x T n (h ++ [.ok (some a)]) = .finish (.error e)
      unfold mapBoxed at hk ⊢
      by_cases hn : n = 1
      · simp only [if_pos hn] at hk ⊢
        split at hk
        · exact .inl ⟨_, rfl⟩
        · cases hk
        · rcases ite_cases hk with ⟨e, _⟩ | ⟨_, e⟩
          · simp only [List.cons_append, List.nil_append, if_pos e]
            exact .inl ⟨_, rfl⟩
          · cases e
        · cases hk
        · rcases ite_cases hk with ⟨_, e⟩ | ⟨_, e⟩ <;> cases e
        · split at hk <;> cases hk
      · simp only [if_neg hn] at hk; cases hk
  option := by
    intro i m V f e
    cases i with
    | ty T =>
      cases e
      cases T with
      | option T => exact .inl ⟨_, _, rfl, fun e => ⟨e, rfl⟩⟩
      | _ => exact .inr ⟨_, rfl⟩
    | field fs => cases e; exact .inr ⟨_, rfl⟩
    | boxed x T => cases e; exact .inr ⟨_, rfl⟩

/-- **C83** For every standard or derived type, `from_slice` has a log; it asks at most three times as often as there are
values in the message, and hands out a subsequence of the message in preorder; all of it if it succeeds and there are no boxed
primitives or generic lists in the message. -/
theorem C83_rust {T : RTy} {w : Bytes} {v : Value} (hw : deserialize w = .ok (.value v)) :
    ∃ r t, LFromSlice rust w (.ty T) r t ∧ requests t ≤ 3 * (preorder v).length ∧ (visits t).Sublist (preorder v) ∧
      ((∀ c l ms, .object c l ms ∈ preorder v → PlainObject c l) → ∀ x, r = .ok x → visits t = preorder v) := by
  obtain ⟨r, hr⟩ := C75_total C76_orderly (w := w) (by rw [hw]; exact fun e => by cases e) (.ty T)
  obtain ⟨t, ht⟩ := C83_log.mp hr
  refine ⟨r, t, ht, C83_requests C76_orderly ht hw, C83_visits ht hw, fun hp x hx => ?_⟩
  subst hx
  exact C83_everything rust_thorough ht hw hp

/-! ## Cases -/

/-- A whole input: a string, handed to a type that has nothing to ask. -/
example : LFromSlice summing (Nrbf.Tests.header 1 ++ [6, 1,0,0,0, 2, 104,105, 11]) () (.ok 2) [.visit (.string [104, 105]), .done] := by
  have e : deserialize (Nrbf.Tests.header 1 ++ [6, 1,0,0,0, 2, 104,105, 11]) = .ok (.value (.string [104, 105])) := by platform_decide
  have h : LFromSlice summing (Nrbf.Tests.header 1 ++ [6, 1,0,0,0, 2, 104,105, 11]) ()
      (conclude id (summer.scalar (.borrowedStr [104, 105]))) [.visit (.string [104, 105]), .done] :=
    .any (m := .any) e rfl (by decide) (.scalar rfl)
  exact h

/-- A whole input with an object, an array and an object in it: whatever the type, if it has a result it has been handed
all of them, and the string and the number in them. -/
example {T : RTy} {x : Dyn} {t : List Call} (h : LFromSlice rust (Spec.write (.value personOld)) (.ty T) (.ok x) t) :
    visits t = [personOld, .string (lit "Bob"), .array [.object (lit "Tag") none [(lit "Id", .int32 7)]],
      .object (lit "Tag") none [(lit "Id", .int32 7)], .int32 7] := by
  have e : preorder personOld = [personOld, .string (lit "Bob"), .array [.object (lit "Tag") none [(lit "Id", .int32 7)]],
      .object (lit "Tag") none [(lit "Id", .int32 7)], .int32 7] := by
    simp [personOld, preorder, preorderItems, preorderMembers]
  rw [C83_everything rust_thorough h person_old_ok ?_, e]
  intro c l ms hm
  rw [e] at hm
  rcases List.mem_cons.mp hm with hm | hm
  · unfold personOld at hm; cases hm; exact .inl (by simp)
  · simp only [List.mem_cons, List.not_mem_nil, or_false, reduceCtorEq, false_or, Value.object.injEq] at hm
    obtain ⟨rfl, rfl, -⟩ := hm
    exact .inr (by decide)

/-- A visitor that goes on asking, whatever the answers. -/
def insatiable : Visitor Unit Int := { summer with seq := fun _ => .next () }
/-- A type with this visitor; it is not orderly. -/
def endless : Unit → Impl Unit Int := fun _ => .call .any insatiable id

theorem endless_run : ∀ {seq vs n h r rest count}, ArrayRun endless seq vs n h r rest count → (∀ h, seq h = .next ()) → False
  | _, _, _, _, _, _, _, .finish h, hs => by rw [hs] at h; cases h
  | _, _, _, _, _, _, _, .element _ _ g, hs => endless_run g hs
  | _, _, _, _, _, _, _, .exhausted _ g, hs => endless_run g hs
termination_by structural x0 x1 x2 x3 x4 x5 x6 h => h

/-- Without orderliness there need not be a result (C75): this type never returns from an array. -/
example (vs : List Value) (r : Res Int) : ¬ Deserialize endless (.array vs) () r := by
  intro h
  cases h with
  | ignore h => cases h
  | call h g =>
    cases h
    cases g with
    | any _ _ g =>
      cases g with
      | scalar h => cases h
      | array g => exact endless_run g fun _ => rfl

end
end Nrbf.Visitors
