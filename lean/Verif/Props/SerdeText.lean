import Verif.Props.SerdeReport

/-! # C64: what is reported when a value cannot be read at a type -/

set_option autoImplicit false

namespace Nrbf

open Spec

variable [Platform] [FloatLib]

/-! ## Every report occurs in some order of the members -/

omit [Platform] [FloatLib] in
theorem Slots.plain {T : RTy} {Ss : List RTy} {e : Str} (h : Slots T Ss e) : ¬ ByItself T := by cases h <;> exact fun h => h

omit [Platform] [FloatLib] in
theorem Repeats.plain {T S : RTy} (h : Repeats T S) : ¬ ByItself T := by cases h <;> exact fun h => h

theorem fails_complete {v : Value} {T : RTy} {r : SerdeError} (h : Fails v T r) (hs : Sane v) (hT : T.erase.Proper) :
    ∃ v', Same v v' ∧ decodeR v' T = .error r := by
  have ok : ∀ {u : Value} {S : RTy}, Sane u → S.erase.Proper → Reads u S → ∃ d, decodeR u S = .ok d :=
    fun hu hS h => (reads_iff hu hS).mp h
  induction h with
  | kind hl hT' ht => exact ⟨_, .refl _, leaf_complete (.kind hl hT' ht) hl hs.text⟩
  | range h1 h2 => exact ⟨_, .refl _, leaf_complete (.range h1 h2) (integer_leaf h1) hs.text⟩
  | character h1 h2 => exact ⟨_, .refl _, leaf_complete (.character h1 h2) (text_leaf h1) hs.text⟩
  | @some v T r hv h ih =>
    obtain ⟨v', h1, h2⟩ := ih hs (proper_option hT)
    refine ⟨v', h1, ?_⟩
    rw [decodeR_some _ _, map_error_iff]
    · exact h2
    · rintro rfl
      cases h1
      exact hv rfl
  | @sequence v vs T hseq ht =>
    refine ⟨v, .refl v, ?_⟩
    have hb : ¬ ByItself T := by
      intro hb
      cases T <;> first | exact hb.elim | exact ht trivial
    cases hseq with
    | array =>
      rw [decodeR_array _ (not_byItself hb).1]
      cases T <;> first | rfl | exact absurd trivial ht
    | list hl =>
      rw [decodeR_list (hs.list hl).2 hl hb]
      cases T <;> first | rfl | exact absurd trivial ht
  | @element v w b a T S r hseq hr hok h ih =>
    have hS := proper_repeats hr hT
    have hsv := hs.sequence hseq
    obtain ⟨w', h1, h2⟩ := ih (hsv w (by simp)) hS
    obtain ⟨v', h3, h4⟩ := Same.sequence hs hseq h1
    have he : firstErr S (b ++ w' :: a) = Option.some r :=
      firstErr_some.mpr ⟨b, w', a, rfl, fun u hu => ok (hsv u (by simp [hu])) hS (hok u hu), h2⟩
    refine ⟨v', h3, ?_⟩
    rcases h4 with rfl | ⟨items, size, hl, hz, ht⟩
    · exact (array_repeats _ hr r).mpr he
    · rw [decodeR_list hz hl hr.plain]
      exact (list_repeats hr r).mpr (.inl (ht ▸ he))
  | @listShort v items size T S hl hr hok hlt =>
    refine ⟨v, .refl v, ?_⟩
    rw [decodeR_list (hs.list hl).2 hl hr.plain]
    refine (list_repeats hr _).mpr (.inr ⟨?_, hlt, rfl⟩)
    exact firstErr_none.mpr fun u hu => ok ((hs.list hl).1 u hu) (proper_repeats hr hT) (hok u hu)
  | @slot v w b a T S Ss Ss' e r hseq hsl hok h ih =>
    have hS := proper_slots hsl hT
    have hsv := hs.sequence hseq
    obtain ⟨w', h1, h2⟩ := ih (hsv w (by simp)) (hS S (by simp))
    obtain ⟨v', h3, h4⟩ := Same.sequence hs hseq h1
    have hok' : OkEach b Ss := (okEach_reads (fun u hu => hsv u (by simp [hu])) fun u hu => hS u (by simp [hu])).mpr hok
    have he : eachErr e 0 (Ss ++ S :: Ss') (b ++ w' :: a) = Option.some r :=
      eachErr_some.mpr (.inl ⟨b, w', a, Ss, S, Ss', rfl, rfl, hok', h2⟩)
    refine ⟨v', h3, ?_⟩
    rcases h4 with rfl | ⟨items, size, hl, hz, ht⟩
    · exact (array_slots _ hsl r).mpr (.inl he)
    · rw [decodeR_list hz hl hsl.plain]
      exact (list_slots hsl r).mpr (.inl (ht ▸ he))
  | @short v vs T Ss Ss' e hseq hsl hne hok =>
    have hS := proper_slots hsl hT
    have hok' : OkEach vs Ss := (okEach_reads (hs.sequence hseq) fun u hu => hS u (by simp [hu])).mpr hok
    have he : eachErr e 0 (Ss ++ Ss') vs = Option.some (.invalidLength vs.length e) :=
      eachErr_some.mpr (.inr ⟨Ss, Ss', rfl, hne, hok', by simp⟩)
    refine ⟨v, .refl v, ?_⟩
    cases hseq with
    | array => exact (array_slots _ hsl _).mpr (.inl he)
    | list hl =>
      rw [decodeR_list (hs.list hl).2 hl hsl.plain]
      exact (list_slots hsl _).mpr (.inl he)
  | @long vs more T Ss e hsl hok hne =>
    have hok' : OkEach vs Ss := (okEach_reads (fun u hu => hs.item (by simp [hu])) (proper_slots hsl hT)).mpr hok
    refine ⟨_, .refl _, (array_slots _ hsl _).mpr (.inr ⟨eachErr_none.mpr ⟨vs, more, rfl, hok'⟩, ?_, ?_⟩)⟩
    · have := List.length_pos_iff.mpr hne
      rw [List.length_append, hok.1]; omega
    · rw [List.length_append, hok.1]
  | @longList v vs more size T Ss e hl hsl hok hlt =>
    have hok' : OkEach vs Ss :=
      (okEach_reads (fun u hu => (hs.list hl).1 u (by simp [hu])) (proper_slots hsl hT)).mpr hok
    refine ⟨v, .refl v, ?_⟩
    rw [decodeR_list (hs.list hl).2 hl hsl.plain]
    refine (list_slots hsl _).mpr (.inr ⟨eachErr_none.mpr ⟨vs, more.take (unsignedSize size - vs.length), ?_, hok'⟩, ?_, ?_⟩)
    · rw [List.take_append, List.take_of_length_le (by omega)]
    · rw [← hok.1]; exact hlt
    · rw [← hok.1]
  | @structSlot w b a name fs fs' k S r hok h ih =>
    have hp := (proper_struct hT).2
    obtain ⟨w', h1, h2⟩ := ih (hs.item (by simp)) (hp (k, S) (by simp))
    refine ⟨_, h1.replace b a, (array_struct _ _ _ _).mpr (.inl (eachErr_some.mpr (.inl ⟨b, w', a, fs.map Prod.snd, S,
      fs'.map Prod.snd, rfl, by simp, ?_, h2⟩)))⟩
    refine (okEach_reads (fun u hu => hs.item (by simp [hu])) ?_).mpr hok
    intro S' hS'
    obtain ⟨f, hf, rfl⟩ := List.mem_map.mp hS'
    exact hp f (by simp [hf])
  | @structShort vs name fs fs' hok hne =>
    have hp := (proper_struct hT).2
    refine ⟨_, .refl _, (array_struct _ _ _ _).mpr (.inl (eachErr_some.mpr (.inr ⟨fs.map Prod.snd, fs'.map Prod.snd,
      by simp, by simpa using hne, ?_, by simp⟩)))⟩
    refine (okEach_reads (fun u hu => hs.item hu) ?_).mpr hok
    intro S' hS'
    obtain ⟨f, hf, rfl⟩ := List.mem_map.mp hS'
    exact hp f (by simp [hf])
  | @structLong vs more name fs hok hne =>
    have hp := (proper_struct hT).2
    have hl : vs.length = fs.length := by simpa using hok.1
    refine ⟨_, .refl _, (array_struct _ _ _ _).mpr (.inr ⟨eachErr_none.mpr ⟨vs, more, rfl, ?_⟩, ?_, ?_⟩)⟩
    · refine (okEach_reads (fun u hu => hs.item (by simp [hu])) ?_).mpr hok
      intro S' hS'
      obtain ⟨f, hf, rfl⟩ := List.mem_map.mp hS'
      exact hp f hf
    · have := List.length_pos_iff.mpr hne
      rw [List.length_append, hl]; omega
    · rw [List.length_append, hl]
  | @object cls lib ms T hp ht =>
    have hb : ¬ ByItself T := by
      intro hb
      cases T <;> first | exact hb.elim | exact ht trivial
    refine ⟨_, .refl _, ?_⟩
    rw [decodeR_object _ _ _ hb, objectAnyR_plain hp]
    cases T <;> first | rfl | exact absurd trivial ht
  | @entry cls lib ms k w T r hp hm h ih =>
    obtain ⟨w', h1, h2⟩ := ih (hs.member hm) (proper_map hT)
    obtain ⟨ms', h3, -⟩ := Same.first (cls := cls) (lib := lib) (hs _ (.refl _)).2.1 hm h1
    refine ⟨_, h3, (map_error cls lib hp _ T r).1.mpr ?_⟩
    simp only [List.map_cons, firstErr, h2]
  | @ignoredEntry cls lib ms k w r hp hm h ih =>
    obtain ⟨w', h1, h2⟩ := ih (hs.member hm) proper_ignored
    obtain ⟨ms', h3, -⟩ := Same.first (cls := cls) (lib := lib) (hs _ (.refl _)).2.1 hm h1
    refine ⟨_, h3, (map_error cls lib hp _ .ignored r).2.1.mpr ?_⟩
    simp only [List.map_cons, firstErr, h2]
  | @anyEntry cls lib ms k w r hp hm h ih =>
    obtain ⟨w', h1, h2⟩ := ih (hs.member hm) proper_any
    obtain ⟨ms', h3, -⟩ := Same.first (cls := cls) (lib := lib) (hs _ (.refl _)).2.1 hm h1
    refine ⟨_, h3, (map_error cls lib hp _ .any r).2.2.mpr ?_⟩
    simp only [List.map_cons, firstErr, h2]
  | @field cls name lib ms fs k w T r hm hf h ih =>
    obtain ⟨hn, hp⟩ := proper_struct hT
    obtain ⟨w', h1, h2⟩ := ih (hs.member hm) (hp _ hf)
    obtain ⟨ms', h3, h4⟩ := Same.first (cls := cls) (lib := lib) (hs _ (.refl _)).2.1 hm h1
    refine ⟨_, h3, (struct_error cls lib h4 name fs r).mpr (.inl ?_)⟩
    simp only [fieldErr, memberType_field hn hf, h2]
  | @unknown cls name lib ms fs k w r hm hf h ih =>
    obtain ⟨w', h1, h2⟩ := ih (hs.member hm) proper_ignored
    obtain ⟨ms', h3, h4⟩ := Same.first (cls := cls) (lib := lib) (hs _ (.refl _)).2.1 hm h1
    refine ⟨_, h3, (struct_error cls lib h4 name fs r).mpr (.inl ?_)⟩
    simp only [fieldErr, memberType_unknown hf, h2]
  | @missing cls name lib ms fs fs' k T h1 h2 h3 h4 =>
    obtain ⟨hn, hp⟩ := proper_struct hT
    refine ⟨_, .refl _, (struct_error cls lib (hs _ (.refl _)).2.1 name _ _).mpr
      (.inr ⟨fieldErr_none.mpr ?_, fs, k, T, fs', rfl, rfl, h3, h4⟩)⟩
    intro m hm
    by_cases hk : m.1 ∈ (fs ++ (k, T) :: fs').map Prod.fst
    · obtain ⟨f, hf, he⟩ := List.mem_map.mp hk
      rw [memberType_field hn (show (m.1, f.2) ∈ _ from he ▸ hf)]
      exact ok (hs.member hm) (hp f hf) (h1 m hm f hf he)
    · rw [memberType_unknown hk]
      exact ok (hs.member hm) proper_ignored (h2 m hm hk)
  | @boxMembers cls c e P T ms hc hbx hb hl =>
    refine ⟨_, .refl _, ?_⟩
    rw [box_error hc hbx hb, unboxR_other _ _ hl]
  | @boxContent cls c e k P T w r hc hbx hb h ih =>
    have hm : (k, w) ∈ [(k, w)] := by simp
    obtain ⟨w', h1, h2⟩ := ih (hs.member hm) (box_proper hbx)
    refine ⟨.object cls none [(k, w')], .object (by simp) (by simp) (by simp) ?_, ?_⟩
    · intro k' v v' hv hv'
      cases List.mem_singleton.mp hv
      cases List.mem_singleton.mp hv'
      exact h1
    · rw [box_error hc hbx hb, unboxR_one, h2]
  | @boxName cls c e k P T w hc hbx hb h hk =>
    have hm : (k, w) ∈ [(k, w)] := by simp
    obtain ⟨d, hd⟩ := ok (hs.member hm) (box_proper hbx) h
    refine ⟨_, .refl _, ?_⟩
    rw [box_error hc hbx hb, unboxR_one, hd]
    simp only [if_neg hk]
  | @boxed cls c e P T w s x r hc hbx hb hx hxs h _ =>
    have hm : (lit "m_value", w) ∈ [(lit "m_value", w)] := by simp
    have hd := decodeR_ok.mpr ((C58 w (hs.member hm) _ (box_proper hbx) x).mpr hx)
    refine ⟨_, .refl _, ?_⟩
    rw [box_error hc hbx hb, unboxR_one, hd]
    simp only [if_pos]
    rw [box_accept hbx hb hxs]
    exact leaf_complete h hxs.leaf hxs.text
  | @listClass cls ms T hc hb hl =>
    refine ⟨_, .refl _, ?_⟩
    rw [decodeR_object _ _ _ hb, objectAnyR_listClass ms hc (hs _ (.refl _)).2.1 hl]
    cases T <;> rfl

/-! ## The relation does not depend on the order of members -/

/-- Pointwise. -/
inductive Sames : List Value → List Value → Prop
  | nil : Sames [] []
  | cons {v v' : Value} {vs vs' : List Value} : Same v v' → Sames vs vs' → Sames (v :: vs) (v' :: vs')

omit [Platform] [FloatLib] in
theorem Sames.refl : ∀ vs : List Value, Sames vs vs
  | [] => .nil
  | v :: vs => .cons (.refl v) (Sames.refl vs)

omit [Platform] [FloatLib] in
theorem Sames.length {vs vs' : List Value} (h : Sames vs vs') : vs.length = vs'.length := by
  induction h with
  | nil => rfl
  | cons _ _ ih => simp [ih]

omit [Platform] [FloatLib] in
theorem Sames.of {vs vs' : List Value} (hl : vs.length = vs'.length)
    (h : ∀ (i : Nat) v v', vs[i]? = some v → vs'[i]? = some v' → Same v v') : Sames vs vs' := by
  induction vs generalizing vs' with
  | nil =>
    cases vs' with
    | nil => exact .nil
    | cons => simp at hl
  | cons v vs ih =>
    cases vs' with
    | nil => simp at hl
    | cons v' vs' =>
      exact .cons (h 0 v v' rfl rfl) (ih (by simpa using hl) fun i u u' hu hu' => h (i + 1) u u' hu hu')

omit [Platform] [FloatLib] in
theorem Sames.append {b a vs' : List Value} (h : Sames (b ++ a) vs') : ∃ b' a', vs' = b' ++ a' ∧ Sames b b' ∧ Sames a a' := by
  induction b generalizing vs' with
  | nil => exact ⟨[], vs', rfl, .nil, h⟩
  | cons v b ih =>
    cases h with
    | cons h1 h2 =>
      obtain ⟨b', a', rfl, h3, h4⟩ := ih h2
      exact ⟨_ :: b', a', rfl, .cons h1 h3, h4⟩

omit [Platform] [FloatLib] in
theorem Sames.split {b a vs' : List Value} {w : Value} (h : Sames (b ++ w :: a) vs') :
    ∃ b' w' a', vs' = b' ++ w' :: a' ∧ Sames b b' ∧ Same w w' ∧ Sames a a' := by
  obtain ⟨b', a', rfl, h1, h2⟩ := h.append
  cases h2 with
  | cons h2 h3 => exact ⟨b', _, _, rfl, h1, h2, h3⟩

omit [Platform] [FloatLib] in
theorem Sames.take {vs vs' : List Value} (h : Sames vs vs') (n : Nat) : Sames (vs.take n) (vs'.take n) := by
  induction h generalizing n with
  | nil => simpa using Sames.nil
  | cons h1 _ ih =>
    cases n with
    | zero => exact .nil
    | succ n => exact .cons h1 (ih n)

omit [Platform] [FloatLib] in
theorem Sames.back {vs vs' : List Value} (h : Sames vs vs') {u' : Value} (hu : u' ∈ vs') : ∃ u ∈ vs, Same u u' := by
  induction h with
  | nil => cases hu
  | cons h1 _ ih =>
    rcases List.mem_cons.mp hu with rfl | hu
    · exact ⟨_, .head _, h1⟩
    · obtain ⟨u, h2, h3⟩ := ih hu
      exact ⟨u, .tail _ h2, h3⟩

omit [Platform] [FloatLib] in
theorem Same.leaf {v v' : Value} (h : Same v v') (hl : IsLeaf v) : v' = v := by
  cases h with
  | refl => rfl
  | array => exact hl.elim
  | object => exact hl.elim

omit [Platform] [FloatLib] in
theorem Same.of_array {vs : List Value} {v' : Value} (h : Same (.array vs) v') : ∃ vs', v' = .array vs' ∧ Sames vs vs' := by
  cases h with
  | refl => exact ⟨vs, rfl, .refl vs⟩
  | array hl h => exact ⟨_, rfl, .of hl h⟩

omit [Platform] [FloatLib] in
theorem Same.of_object {cls : Str} {lib : Option Str} {ms : List (Str × Value)} {v' : Value} (hn : (ms.map Prod.fst).Nodup)
    (h : Same (.object cls lib ms) v') : ∃ ms', v' = .object cls lib ms' ∧ SameMembers ms ms' ∧
      ∀ k v v', (k, v) ∈ ms → (k, v') ∈ ms' → Same v v' := by
  cases h with
  | refl => exact ⟨ms, rfl, ⟨hn, hn, fun _ => .rfl⟩, fun k v v' h h' => member_unique hn h h' ▸ .refl v⟩
  | object h1 h2 h3 h4 => exact ⟨_, rfl, ⟨h1, h2, h3⟩, h4⟩

theorem Same.of_single {cls k : Str} {lib : Option Str} {w v' : Value} (h : Same (.object cls lib [(k, w)]) v') :
    ∃ w', v' = .object cls lib [(k, w')] ∧ Same w w' := by
  obtain ⟨ms', rfl, h1, h2⟩ := h.of_object (by simp)
  have hl := h1.length
  match ms', hl with
  | [(k', w')], _ =>
    obtain ⟨v', hv'⟩ := h1.find (List.mem_singleton.mpr rfl)
    cases List.mem_singleton.mp hv'
    exact ⟨w', rfl, h2 k w w' (by simp) (by simp)⟩

theorem IsList.same {v v' : Value} {items : List Value} {size : Int} (hl : IsList v items size) (h : Same v v') :
    ∃ items', IsList v' items' size ∧ Sames items items' := by
  obtain ⟨cls, ms, version, rfl, hc, hlen, hn, m1, m2, m3⟩ := hl
  obtain ⟨ms', rfl, h1, h2⟩ := h.of_object hn
  obtain ⟨v1, n1⟩ := h1.find m1
  obtain ⟨v2, n2⟩ := h1.find m2
  obtain ⟨v3, n3⟩ := h1.find m3
  obtain ⟨items', rfl, hi⟩ := (h2 _ _ _ m1 n1).of_array
  cases (h2 _ _ _ m2 n2).leaf trivial
  cases (h2 _ _ _ m3 n3).leaf trivial
  exact ⟨items', ⟨cls, ms', version, rfl, hc, by rw [← h1.length]; exact hlen, h1.nodup', n1, n2, n3⟩, hi⟩

theorem Sequence.same {v v' : Value} {vs : List Value} (hs : Sequence v vs) (h : Same v v') :
    ∃ vs', Sequence v' vs' ∧ Sames vs vs' := by
  cases hs with
  | array =>
    obtain ⟨vs', rfl, h'⟩ := h.of_array
    exact ⟨vs', .array vs', h'⟩
  | list hl =>
    obtain ⟨items', h1, h2⟩ := hl.same h
    exact ⟨_, .list h1, h2.take _⟩

theorem Same.sub {v v' : Value} (h : Same v v') (hs : ∀ u, SubValue u v → NamesDistinct u) {u' : Value}
    (hu : SubValue u' v') : ∃ u, SubValue u v ∧ Same u u' := by
  induction hu generalizing v with
  | refl => exact ⟨v, .refl v, h⟩
  | item hm _ ih =>
    obtain ⟨vs, rfl, h1⟩ := h.symm.of_array
    obtain ⟨w, hw, h2⟩ := (show Sames vs _ from (by obtain ⟨_, e, h'⟩ := h.of_array; cases e; exact h')).back hm
    obtain ⟨u, h3, h4⟩ := ih h2 fun u hu => hs u (.item hw hu)
    exact ⟨u, .item hw h3, h4⟩
  | @member w' c l k ms' hm _ ih =>
    have : ∃ ms, v = .object c l ms := by cases h <;> exact ⟨_, rfl⟩
    obtain ⟨ms, rfl⟩ := this
    obtain ⟨ms'', e, h1, h2⟩ := h.of_object (hs _ (.refl _))
    cases e
    obtain ⟨w, hw⟩ := h1.symm.find hm
    obtain ⟨u, h3, h4⟩ := ih (h2 k w w' hw hm) fun u hu => hs u (.member hw hu)
    exact ⟨u, .member hw h3, h4⟩

/-- Another order of members keeps a value sane. -/
theorem Sane.same {v v' : Value} (hs : Sane v) (h : Same v v') : Sane v' := by
  intro u' hu'
  obtain ⟨u, h1, h2⟩ := h.sub (fun u hu => (hs u hu).2.1) hu'
  obtain ⟨a1, a2, a3, a4, a5⟩ := hs u h1
  refine ⟨?_, ?_, ?_, ?_, ?_⟩
  · cases h2 with
    | refl => exact a1
    | array => trivial
    | object => trivial
  · cases h2 with
    | refl => exact a2
    | array => trivial
    | object _ h => exact h
  · rintro s rfl; cases h2; exact a3 _ rfl
  · rintro s rfl; cases h2; exact a4 _ rfl
  · intro items size hl
    obtain ⟨items', h3, h4⟩ := hl.same h2.symm
    rw [h4.length]
    exact a5 _ _ h3

omit [Platform] [FloatLib] in
theorem Ty.Proper.ok {T : Ty} (h : T.Proper) : T.OK true := by
  induction h with
  | option _ ih => exact .option ih
  | vec _ ih => exact .vec ih
  | newtype _ ih => exact .newtype ih
  | map _ ih => exact .map rfl ih
  | any => exact .any rfl
  | tuple _ ih => exact .tuple ih
  | struct h1 _ ih => exact .struct h1 ih
  | int => exact .int _ _
  | _ => constructor

theorem Reads.same {v v' : Value} {T : RTy} (h : Reads v T) (hs : Sane v) (hT : T.erase.Proper) (hv : Same v v') :
    Reads v' T := by
  obtain ⟨d, hd⟩ := h
  have := C48 v v' hv _ hT.ok
  rw [(C58 v hs _ hT d).mpr hd] at this
  cases h' : decode v' T.erase with
  | ok d' => exact ⟨d', (C58 v' (hs.same hv) _ hT d').mp h'⟩
  | error e => rw [h'] at this; exact this.elim

theorem reads_all_same {vs vs' : List Value} (h : Sames vs vs') {S : RTy} (hS : S.erase.Proper) (hs : ∀ u ∈ vs, Sane u)
    (hr : ∀ u ∈ vs, Reads u S) : ∀ u ∈ vs', Reads u S := by
  intro u' hu'
  obtain ⟨u, hu, hv⟩ := h.back hu'
  exact (hr u hu).same (hs u hu) hS hv

theorem reads_each_same {vs vs' : List Value} (h : Sames vs vs') {Ts : List RTy} (hS : ∀ S ∈ Ts, S.erase.Proper)
    (hs : ∀ u ∈ vs, Sane u) (hr : ReadsEach vs Ts) : ReadsEach vs' Ts := by
  refine ⟨h.length ▸ hr.1, ?_⟩
  replace hr := hr.2
  induction h generalizing Ts with
  | nil => simp
  | @cons v v' vs vs' h1 _ ih =>
    cases Ts with
    | nil => simp
    | cons T Ts =>
      intro p hp
      rcases List.mem_cons.mp hp with rfl | hp
      · exact (hr (v, T) (.head _)).same (hs v (.head _)) (hS T (.head _)) h1
      · exact ih (fun S h => hS S (.tail _ h)) (fun u h => hs u (.tail _ h)) (fun p h => hr p (.tail _ h)) p hp

theorem fails_same {v v' : Value} {T : RTy} {r : SerdeError} (h : Fails v T r) (hv : Same v v') (hs : Sane v)
    (hT : T.erase.Proper) : Fails v' T r := by
  induction h generalizing v' with
  | kind hl h1 h2 => rw [hv.leaf hl]; exact .kind hl h1 h2
  | range h1 h2 => rw [hv.leaf (integer_leaf h1)]; exact .range h1 h2
  | character h1 h2 => rw [hv.leaf (text_leaf h1)]; exact .character h1 h2
  | some hn h ih =>
    refine .some ?_ (ih hv hs (proper_option hT))
    rintro rfl
    cases hv
    exact hn rfl
  | sequence h1 h2 =>
    obtain ⟨vs', h3, -⟩ := h1.same hv
    exact .sequence h3 h2
  | element h1 h2 h3 h4 ih =>
    have hsv := hs.sequence h1
    obtain ⟨vs', h5, h6⟩ := h1.same hv
    obtain ⟨b', w', a', rfl, h7, h8, -⟩ := h6.split
    have hS := proper_repeats h2 hT
    exact .element h5 h2 (reads_all_same h7 hS (fun u hu => hsv u (by simp [hu])) h3) (ih h8 (hsv _ (by simp)) hS)
  | listShort h1 h2 h3 h4 =>
    obtain ⟨items', h5, h6⟩ := h1.same hv
    rw [h6.length] at h4 ⊢
    exact .listShort h5 h2 (reads_all_same h6 (proper_repeats h2 hT) (hs.list h1).1 h3) h4
  | slot h1 h2 h3 h4 ih =>
    have hsv := hs.sequence h1
    obtain ⟨vs', h5, h6⟩ := h1.same hv
    obtain ⟨b', w', a', rfl, h7, h8, -⟩ := h6.split
    have hS := proper_slots h2 hT
    exact .slot h5 h2 (reads_each_same h7 (fun S h => hS S (by simp [h])) (fun u hu => hsv u (by simp [hu])) h3)
      (ih h8 (hsv _ (by simp)) (hS _ (by simp)))
  | short h1 h2 h3 h4 =>
    have hsv := hs.sequence h1
    obtain ⟨vs', h5, h6⟩ := h1.same hv
    have hS := proper_slots h2 hT
    rw [h6.length]
    exact .short h5 h2 h3 (reads_each_same h6 (fun S h => hS S (by simp [h])) hsv h4)
  | long h1 h2 h3 =>
    obtain ⟨vs', rfl, h4⟩ := hv.of_array
    obtain ⟨us', more', rfl, h5, h6⟩ := h4.append
    rw [h5.length, h6.length]
    refine .long h1 (reads_each_same h5 (proper_slots h1 hT) (fun u hu => hs.item (by simp [hu])) h2) ?_
    rintro rfl
    cases h6
    exact h3 rfl
  | longList h1 h2 h3 h4 =>
    obtain ⟨items', h5, h6⟩ := h1.same hv
    obtain ⟨us', more', rfl, h7, h8⟩ := h6.append
    rw [h7.length] at h4 ⊢
    exact .longList h5 h2 (reads_each_same h7 (proper_slots h2 hT) (fun u hu => (hs.list h1).1 u (by simp [hu])) h3) h4
  | @structSlot w b a name fs fs' k S r h1 h2 ih =>
    have hp := (proper_struct hT).2
    obtain ⟨vs', rfl, h4⟩ := hv.of_array
    obtain ⟨b', w', a', rfl, h7, h8, -⟩ := h4.split
    refine .structSlot (reads_each_same h7 ?_ (fun u hu => hs.item (by simp [hu])) h1)
      (ih h8 (hs.item (by simp)) (hp (k, S) (by simp)))
    intro S' hS'
    obtain ⟨f, hf, rfl⟩ := List.mem_map.mp hS'
    exact hp f (by simp [hf])
  | structShort h1 h2 =>
    have hp := (proper_struct hT).2
    obtain ⟨vs', rfl, h4⟩ := hv.of_array
    rw [h4.length]
    refine .structShort (reads_each_same h4 ?_ (fun u hu => hs.item hu) h1) h2
    intro S' hS'
    obtain ⟨f, hf, rfl⟩ := List.mem_map.mp hS'
    exact hp f (by simp [hf])
  | structLong h1 h2 =>
    have hp := (proper_struct hT).2
    obtain ⟨vs', rfl, h4⟩ := hv.of_array
    obtain ⟨us', more', rfl, h5, h6⟩ := h4.append
    rw [h5.length, h6.length]
    refine .structLong (reads_each_same h5 ?_ (fun u hu => hs.item (by simp [hu])) h1) ?_
    · intro S' hS'
      obtain ⟨f, hf, rfl⟩ := List.mem_map.mp hS'
      exact hp f hf
    · rintro rfl
      cases h6
      exact h2 rfl
  | object h1 h2 =>
    obtain ⟨ms', rfl, -, -⟩ := hv.of_object (hs _ (.refl _)).2.1
    exact .object h1 h2
  | entry h1 h2 h3 ih =>
    obtain ⟨ms', rfl, h4, h5⟩ := hv.of_object (hs _ (.refl _)).2.1
    obtain ⟨w', h6⟩ := h4.find h2
    exact .entry h1 h6 (ih (h5 _ _ _ h2 h6) (hs.member h2) (proper_map hT))
  | ignoredEntry h1 h2 h3 ih =>
    obtain ⟨ms', rfl, h4, h5⟩ := hv.of_object (hs _ (.refl _)).2.1
    obtain ⟨w', h6⟩ := h4.find h2
    exact .ignoredEntry h1 h6 (ih (h5 _ _ _ h2 h6) (hs.member h2) proper_ignored)
  | anyEntry h1 h2 h3 ih =>
    obtain ⟨ms', rfl, h4, h5⟩ := hv.of_object (hs _ (.refl _)).2.1
    obtain ⟨w', h6⟩ := h4.find h2
    exact .anyEntry h1 h6 (ih (h5 _ _ _ h2 h6) (hs.member h2) proper_any)
  | field h1 h2 h3 ih =>
    obtain ⟨ms', rfl, h4, h5⟩ := hv.of_object (hs _ (.refl _)).2.1
    obtain ⟨w', h6⟩ := h4.find h1
    exact .field h6 h2 (ih (h5 _ _ _ h1 h6) (hs.member h1) ((proper_struct hT).2 _ h2))
  | unknown h1 h2 h3 ih =>
    obtain ⟨ms', rfl, h4, h5⟩ := hv.of_object (hs _ (.refl _)).2.1
    obtain ⟨w', h6⟩ := h4.find h1
    exact .unknown h6 h2 (ih (h5 _ _ _ h1 h6) (hs.member h1) proper_ignored)
  | @missing cls name lib ms fs fs' k T h1 h2 h3 h4 =>
    obtain ⟨ms', rfl, h5, h6⟩ := hv.of_object (hs _ (.refl _)).2.1
    have hset : ∀ f, Settled ms' f ↔ Settled ms f := fun f => or_congr (h5.keys f.1).symm .rfl
    refine .missing ?_ ?_ (fun f hf => (hset f).mpr (h3 f hf)) (fun h => h4 ((hset _).mp h))
    · rintro ⟨k', w'⟩ hm f hf he
      obtain ⟨w, hw⟩ := h5.symm.find hm
      exact (h1 _ hw f hf he).same (hs.member hw) ((proper_struct hT).2 f hf) (h6 _ _ _ hw hm)
    · rintro ⟨k', w'⟩ hm hk
      obtain ⟨w, hw⟩ := h5.symm.find hm
      exact (h2 _ hw hk).same (hs.member hw) proper_ignored (h6 _ _ _ hw hm)
  | boxMembers h1 h2 h3 h4 =>
    obtain ⟨ms', rfl, h5, -⟩ := hv.of_object (hs _ (.refl _)).2.1
    exact .boxMembers h1 h2 h3 (h5.length ▸ h4)
  | boxContent h1 h2 h3 h4 ih =>
    obtain ⟨w', rfl, h5⟩ := hv.of_single
    exact .boxContent h1 h2 h3 (ih h5 (hs.member (List.mem_singleton.mpr rfl)) (box_proper h2))
  | boxName h1 h2 h3 h4 h5 =>
    obtain ⟨w', rfl, h6⟩ := hv.of_single
    exact .boxName h1 h2 h3 (h4.same (hs.member (List.mem_singleton.mpr rfl)) (box_proper h2) h6) h5
  | @boxed cls c e P T w s x r h1 h2 h3 h4 h5 h6 _ =>
    obtain ⟨w', rfl, h7⟩ := hv.of_single
    have hw := hs.member (List.mem_singleton.mpr rfl)
    have hok : P.erase.OK false := by generalize P.erase = Q at h5; cases h5 <;> first | exact .int _ _ | constructor
    have hd := (C48_eq _ _ h7 _ hok x).mp ((C58 w hw _ (box_proper h2) x).mpr h4)
    exact .boxed h1 h2 h3 ((C58 w' (hw.same h7) _ (box_proper h2) x).mp hd) h5 h6
  | listClass h1 h2 h3 =>
    have hv' := hv
    obtain ⟨ms', rfl, -, -⟩ := hv.of_object (hs _ (.refl _)).2.1
    refine .listClass h1 h2 fun items size hl => ?_
    obtain ⟨items', h4, -⟩ := hl.same hv'.symm
    exact h3 _ _ h4

/-! ## The theorems -/

/-- **C64** The reports of a value that cannot be read at a type - for some order in which the hash maps of
its objects enumerate their members - are exactly those of `Spec/Fails.lean`. -/
theorem C64 (v : Value) (hv : Sane v) (T : RTy) (hT : T.erase.Proper) (r : SerdeError) :
    Fails v T r ↔ ∃ v', Same v v' ∧ decodeR v' T = .error r :=
  ⟨fun h => fails_complete h hv hT,
   fun ⟨v', h, hr⟩ => fails_same (reported_sound v' v' (.refl v') (hv.same h) T hT r hr) h.symm (hv.same h) hT⟩

/-- **C64** Reading a value either succeeds with what `Spec/Decode.lean` says, or fails with a report of
`Spec/Fails.lean`; never both, whatever the order of the members. -/
theorem C64_total (v : Value) (hv : Sane v) (T : RTy) (hT : T.erase.Proper) :
    match decodeR v T with
    | .ok d => Decodes v T.erase d ∧ ∀ r, ¬ Fails v T r
    | .error r => Fails v T r ∧ ∀ d, ¬ Decodes v T.erase d := by
  cases h : decodeR v T with
  | ok d =>
    refine ⟨(C58 v hv _ hT d).mp (decodeR_ok.mp h), fun r hr => ?_⟩
    obtain ⟨v', h1, h2⟩ := (C64 v hv T hT r).mp hr
    obtain ⟨d', hd'⟩ := (reads_iff (hv.same h1) hT).mp
      (Reads.same ⟨d, (C58 v hv _ hT d).mp (decodeR_ok.mp h)⟩ hv hT h1)
    rw [h2] at hd'; cases hd'
  | error r =>
    refine ⟨reported_sound v v (.refl v) hv T hT r h, fun d hd => ?_⟩
    rw [decodeR_ok.mpr ((C58 v hv _ hT d).mpr hd)] at h
    cases h

/-- **C64** Which reports there are at all: neither a parsing error nor a duplicate field. -/
theorem C64_kinds (v : Value) (T : RTy) (r : SerdeError) (h : Fails v T r) :
    (∃ u e, r = .invalidType u e ∧ u ≠ .methodCall ∧ u ≠ .methodReturn ∧ u ≠ .option) ∨ (∃ u e, r = .invalidValue u e) ∨ (∃ n e, r = .invalidLength n e) ∨
      (∃ k, r = .missingField k) ∨ r = .systemClass (lit "System.Collections.Generic.List") := by
  induction h with
  | @kind v T hl _ _ =>
    exact .inl ⟨_, _, rfl, by cases v <;> simp [Value.called], by cases v <;> simp [Value.called],
      by cases v <;> simp [Value.called]⟩
  | range | character => exact .inr (.inl ⟨_, _, rfl⟩)
  | sequence | object | boxMembers | boxName => exact .inl ⟨_, _, rfl, by simp, by simp, by simp⟩
  | listShort | short | long | longList | structShort | structLong => exact .inr (.inr (.inl ⟨_, _, rfl⟩))
  | missing => exact .inr (.inr (.inr (.inl ⟨_, rfl⟩)))
  | listClass => exact .inr (.inr (.inr (.inr rfl)))
  | _ => assumption

/-! ## `from_slice` -/

/-- What is left of a result if the text of the error is dropped. -/
def TextSlice.erase : TextSlice → SliceResult
  | .ok d => .ok d
  | .err e => .err e.erase
  | .panic => .panic
  | .hang => .hang

/-- **C64** The texts are the only difference: without them, `from_slice` of the model with texts is the
`from_slice` all other properties (C40 to C58) speak of. -/
theorem C64_erase (T : RTy) (w : Bytes) : (fromSliceR T w).erase = fromSlice T.erase w := by
  unfold fromSliceR fromSlice
  cases deserialize w with
  | ok m =>
    simp only
    have := message_sim m T
    cases h1 : messageR m T <;> cases h2 : (messageDeser m).run T.erase <;> rw [h1, h2] at this <;>
      first | exact this.elim | skip
    · rename_i e e'
      cases (this : e.erase = e')
      cases e with
      | invalidType u x => cases u <;> rfl
      | _ => rfl
    · cases (this : _ = _); rfl
  | err e => rfl
  | panic => rfl
  | hang => rfl

/-- **C64** Malformed data: `parsing error:` and the text of the parse error. -/
theorem C64_malformed [TextLib] (T : RTy) (w : Bytes) (e : Error) (h : deserialize w = .err e) :
    fromSliceR T w = .err (.parsing e) ∧ (SerdeError.parsing e).text = lit "parsing error: " ++ lit e.display := by
  unfold fromSliceR; rw [h]; exact ⟨rfl, rfl⟩

/-- **C64** A method call. -/
theorem C64_call [TextLib] (T : RTy) (w : Bytes) (c : MethodCall) (h : deserialize w = .ok (.methodCall c)) :
    ∃ r, fromSliceR T w = .err r ∧ r.text = lit "invalid type: method call, expected " ++ T.expecting := by
  refine ⟨.invalidType .methodCall T.expecting, by unfold fromSliceR; rw [h]; rfl, ?_⟩
  show lit "invalid type: " ++ lit "method call" ++ lit ", expected " ++ T.expecting = _
  rw [show lit "invalid type: method call, expected " = lit "invalid type: " ++ lit "method call" ++ lit ", expected " from rfl]

/-- **C64** A method return. -/
theorem C64_return [TextLib] (T : RTy) (w : Bytes) (c : MethodReturn) (h : deserialize w = .ok (.methodReturn c)) :
    ∃ r, fromSliceR T w = .err r ∧ r.text = lit "invalid type: method return, expected " ++ T.expecting := by
  refine ⟨.invalidType .methodReturn T.expecting, by unfold fromSliceR; rw [h]; rfl, ?_⟩
  show lit "invalid type: " ++ lit "method return" ++ lit ", expected " ++ T.expecting = _
  rw [show lit "invalid type: method return, expected " = lit "invalid type: " ++ lit "method return" ++ lit ", expected " from rfl]

theorem messageR_value (v : Value) {T : RTy} (hT : ∀ T', T ≠ .option T') : messageR (.value v) T = decodeR v T := by
  show Deser.runR ⟨_, _, _⟩ T = (valueDeserR v).runR T
  cases T <;> first | exact absurd rfl (hT _) | rfl

/-- **C64** `from_slice` of a message with a value: it succeeds with what the value is as a value of the type,
or reports what `Spec/Fails.lean` says. -/
theorem C64_from_slice {w : Bytes} {v : Value} (h : deserialize w = .ok (.value v))
    (hdec : ∀ x : Dec, IsUtf8 (Platform.decimalToStr x))
    (hbig : usizeBits = 32 → ∀ u items size, SubValue u v → IsList u items size → items.length < 2 ^ 30)
    (T : RTy) (hT : T.erase.Proper) (hopt : ∀ T', T ≠ .option T') :
    (∃ d, fromSliceR T w = .ok d ∧ Decodes v T.erase d) ∨ ∃ r, fromSliceR T w = .err r ∧ Fails v T r := by
  have hs := parsed_sane h hdec hbig
  have ht := C64_total v hs T hT
  unfold fromSliceR
  simp only [h, messageR_value v hopt]
  cases hd : decodeR v T with
  | ok d => rw [hd] at ht; exact .inl ⟨d, rfl, ht.1⟩
  | error r =>
    rw [hd] at ht
    refine .inr ⟨r, ?_, ht.1⟩
    cases r with
    | hang => rcases C64_kinds v T _ ht.1 with ⟨_, _, h, _⟩ | ⟨_, _, h⟩ | ⟨_, _, h⟩ | ⟨_, h⟩ | h <;> cases h
    | _ => rfl

/-- **C64** An option at the root (finding: it is not forwarded as an option): everything but null is an
error. -/
theorem C64_root_option {w : Bytes} {v : Value} (h : deserialize w = .ok (.value v)) (T : RTy) :
    (v = .null → fromSliceR (.option T) w = .ok .none) ∧
    (v ≠ .null → IsLeaf v ∨ (∃ vs, v = .array vs) ∨ (∃ cls lib ms, v = .object cls lib ms ∧ PlainObject cls lib) →
      fromSliceR (.option T) w = .err (.invalidType v.called (lit "option"))) := by
  unfold fromSliceR
  simp only [h]
  constructor
  · rintro rfl
    have : messageR (.value .null) (.option T) = .ok .none := by
      unfold messageR; simp only; rw [valueDeserR]; rfl
    rw [this]
  · intro hn hk
    have : messageR (.value v) (.option T) = .error (.invalidType v.called (lit "option")) := by
      unfold messageR
      simp only
      rcases hk with hl | ⟨vs, rfl⟩ | ⟨cls, lib, ms, rfl, hp⟩
      · cases v
        case object => exact hl.elim
        case array => exact hl.elim
        case null => exact absurd rfl hn
        all_goals (rw [valueDeserR]; rfl)
      · rw [valueDeserR]; rfl
      · rw [valueDeserR]
        simp only [objectDeserR, objectAnyR_plain hp]
        rfl
    rw [this]

/-! ## Some texts -/

/-- **C64** `[T; n]` (and any other type of `n` elements) from an array of the wrong length whose elements
are fine as far as they are read. -/
theorem C64_array_length [TextLib] (vs : List Value) (n : Nat) (T : RTy) (hv : ∀ u ∈ vs.take n, Reads u T)
    (hs : ∀ u ∈ vs, Sane u) (hT : T.erase.Proper) :
    (vs.length < n → ∃ r, decodeR (.array vs) (.array n T) = .error r ∧
      r.text = lit "invalid length " ++ digits vs.length ++ lit ", expected " ++ lit "an array of length " ++ digits n) ∧
    (n < vs.length → ∃ r, decodeR (.array vs) (.array n T) = .error r ∧
      r.text = lit "invalid length " ++ digits vs.length ++ lit ", expected " ++
        (if n = 1 then lit "1 element" else digits n ++ lit " elements") ++ lit " in array") := by
  have ok : ∀ m, m ≤ n → m ≤ vs.length → OkEach (vs.take m) (List.replicate m T) := by
    intro m hm hm'
    refine ⟨by simp [List.length_take]; omega, fun p hp => ?_⟩
    obtain ⟨h1, h2⟩ := List.of_mem_zip (a := p.1) (b := p.2) hp
    rw [(List.mem_replicate.mp h2).2]
    have h3 : p.1 ∈ vs.take n := by
      rw [← List.take_append_drop m (vs.take n), List.take_take, Nat.min_eq_left hm]
      exact List.mem_append_left _ h1
    exact (reads_iff (hs _ (List.mem_of_mem_take h1)) hT).mp (hv _ h3)
  constructor
  · intro hlt
    refine ⟨.invalidLength vs.length (lit "an array of length " ++ digits n), ?_, ?_⟩
    · refine (array_slots vs (.array n T) _).mpr (.inl (eachErr_some.mpr (.inr ⟨List.replicate vs.length T,
        List.replicate (n - vs.length) T, ?_, ?_, ?_, ?_⟩)))
      · rw [List.replicate_append_replicate]; congr 1; omega
      · intro h; have := congrArg List.length h; simp at this; omega
      · simpa using ok vs.length (by omega) (by omega)
      · rw [RTy.expecting, if_neg (by omega), Nat.zero_add]
    · simp only [SerdeError.text, List.append_assoc]
  · intro hlt
    refine ⟨.invalidLength vs.length (elements n ++ lit " in array"), ?_, ?_⟩
    · refine (array_slots vs (.array n T) _).mpr (.inr ⟨eachErr_none.mpr ⟨vs.take n, vs.drop n, by simp, ?_⟩, ?_, ?_⟩)
      · simpa using ok n (by omega) (by omega)
      · simpa using hlt
      · rw [List.length_replicate]
    · simp only [SerdeError.text, elements, List.append_assoc]

/-- **C64** A missing field of a struct, if all members are fine and no earlier field is missing. -/
theorem C64_missing [TextLib] (cls name : Str) (lib : Option Str) (ms : List (Str × Value)) (fs fs' : List (Str × RTy)) (k : Str) (T : RTy)
    (hs : Sane (.object cls lib ms)) (hp : (RTy.struct name (fs ++ (k, T) :: fs')).erase.Proper)
    (h1 : ∀ m ∈ ms, ∀ f ∈ fs ++ (k, T) :: fs', f.1 = m.1 → Reads m.2 f.2)
    (h2 : ∀ m ∈ ms, m.1 ∉ (fs ++ (k, T) :: fs').map Prod.fst → Reads m.2 .ignored)
    (h3 : ∀ f ∈ fs, f.1 ∈ ms.map Prod.fst ∨ ∃ T, f.2 = .option T) (h4 : k ∉ ms.map Prod.fst) (h5 : ∀ T', T ≠ .option T') :
    ∃ r, decodeR (.object cls lib ms) (.struct name (fs ++ (k, T) :: fs')) = .error r ∧
      r.text = lit "missing field `" ++ k ++ lit "`" := by
  refine ⟨.missingField k, ?_, rfl⟩
  obtain ⟨hn, hp'⟩ := proper_struct hp
  refine (struct_error cls lib (hs _ (.refl _)).2.1 name _ _).mpr
    (.inr ⟨fieldErr_none.mpr ?_, fs, k, T, fs', rfl, rfl, h3, ?_⟩)
  · intro m hm
    by_cases hk : m.1 ∈ (fs ++ (k, T) :: fs').map Prod.fst
    · obtain ⟨f, hf, he⟩ := List.mem_map.mp hk
      rw [memberType_field hn (show (m.1, f.2) ∈ _ from he ▸ hf)]
      exact (reads_iff (hs.member hm) (hp' f hf)).mp (h1 m hm f hf he)
    · rw [memberType_unknown hk]
      exact (reads_iff (hs.member hm) proper_ignored).mp (h2 m hm hk)
  · rintro (h | ⟨T', h⟩)
    · exact h4 h
    · exact h5 T' h

end Nrbf
