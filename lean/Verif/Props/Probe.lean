import Verif.Props.LookSame

/-! # C80: what some type can tell apart -/

set_option autoImplicit false

namespace Nrbf.Visitors

open Spec

/-! ## A family of types -/

/-- The values of the types: what is found at some place. -/
inductive Info where
  | scalar (s : Scalar)
  | seq (length : Nat)
  | map (names : List Str)
  | failed (text : Str)
  | name (s : Str)
  | absent

/-- The types: `at p b` goes down the path `p`, through arrays and objects, and tells what it finds there, asking for a struct or,
if `b`, for anything. -/
inductive Probe where
  | «at» (p : List Nat) (any : Bool)
  | key
  | skip

/-- Errors are results, too. -/
def caught : Res Info → Res Info
  | .ok x => .ok x
  | .error e => .ok (.failed e)

/-- Only what kind of value it is. -/
def anyVisitor : Visitor Probe Info where
  expecting := []
  scalar s := .ok (.scalar s)
  some := .finish (.error [])
  seq _ := .finish (.error (lit "s"))
  map _ _ := .finish (.error (lit "m"))
  enum _ := .error []

def keyVisitor : Visitor Probe Info where
  expecting := []
  scalar s := match s with | .str k => .ok (.name k) | _ => .ok .absent
  some := .finish (.error [])
  seq _ := .finish (.error [])
  map _ _ := .finish (.error [])
  enum _ := .error []

/-- The answer at a place, if it was an answer. -/
def answerAt (h : List (Res (Option Info))) (k : Nat) : Info :=
  match h[k]? with
  | some (.ok (some x)) => x
  | _ => .absent

/-- As what the `j`-th part is read. -/
def partType : List Nat → Bool → Nat → Probe
  | [], _, _ => .skip
  | k :: p, b, j => if j = k then .at p b else .skip

def namesOf : List (Res (Option Info)) → List Str
  | .ok (some (.name k)) :: _ :: h => k :: namesOf h
  | _ => []

/-- What is told in the end. -/
def seqInfo (h : List (Res (Option Info))) : List Nat → Info
  | [] => .seq (h.length - 1)
  | k :: _ => answerAt h k

def mapInfo (h : List (Res (Option Info))) : List Nat → Info
  | [] => .map (namesOf h)
  | k :: _ => answerAt h (2 * k + 1)

def structVisitor (p : List Nat) (b : Bool) : Visitor Probe Info where
  expecting := []
  scalar s := .ok (.scalar s)
  some := .finish (.error [])
  seq h := match h.getLast? with
    | some (.ok none) => .finish (.ok (seqInfo h p))
    | _ => .next (partType p b h.length)
  map n h :=
    if 2 * n ≤ h.length then .finish (.ok (mapInfo h p))
    else if h.length % 2 = 0 then .key .key
    else .value (partType p b (h.length / 2))
  enum _ := .error []

def probe : Probe → Impl Probe Info
  | .skip => .ignore (.ok .absent)
  | .key => .call .str keyVisitor id
  | .at [] true => .call .any anyVisitor caught
  | .at p b => .call .struct (structVisitor p b) caught

section
variable [Platform] [FloatLib] [TextLib]

/-! ## What they find -/

def scalarInfo (v : Value) : Info := match scalarOf v with | some s => .scalar s | none => .absent

def callInfo : ObjectCall → Info
  | .map => .failed (lit "m")
  | .boxed s => .scalar s
  | .list _ _ => .failed (lit "s")
  | .fail e => .failed e

def anyInfo : Value → Info
  | .array _ => .failed (lit "s")
  | .object c l ms => callInfo (objectCall c l ms)
  | v => scalarInfo v

def structInfo : Value → Info
  | .array vs => .seq vs.length
  | .object _ _ ms => .map (ms.map Prod.fst)
  | v => scalarInfo v

def info : List Nat → Bool → Value → Info
  | [], true, v => anyInfo v
  | [], false, v => structInfo v
  | k :: p, b, .array vs => match vs[k]? with | some u => info p b u | none => .absent
  | k :: p, b, .object _ _ ms => match ms[k]? with | some m => info p b m.2 | none => .absent
  | _ :: _, _, v => scalarInfo v

theorem array_probe {p : List Nat} {b : Bool} {a : Nat → Info} : ∀ (vs : List Value) (h : List (Res (Option Info))),
    (∀ x ∈ h, Got x) → (∀ j v, vs[j]? = some v → Deserialize probe v (partType p b (h.length + j)) (.ok (a (h.length + j)))) →
    ∃ h' : List (Res (Option Info)), h'.length = h.length + vs.length ∧ (∀ j, j < h.length → h'[j]? = h[j]?) ∧
      (∀ j, h.length ≤ j → j < h.length + vs.length → h'[j]? = some (.ok (some (a j)))) ∧
      ArrayRun probe (structVisitor p b).seq vs h.length h (.ok (seqInfo (h' ++ [.ok none]) p)) [] (h.length + vs.length)
  | [], h, hg, _ => by
    refine ⟨h, rfl, fun _ _ => rfl, by intro j h1 h2; simp at h2; omega, ?_⟩
    have hn : (structVisitor p b).seq h = .next (partType p b h.length) := by
      unfold structVisitor
      simp only
      cases hl : h.getLast? with
      | none => rfl
      | some x =>
        obtain ⟨y, rfl⟩ := hg x (List.mem_of_getLast? hl)
        rfl
    refine .exhausted hn (.finish ?_)
    simp [structVisitor]
  | v :: vs, h, hg, hd => by
    have hn : (structVisitor p b).seq h = .next (partType p b h.length) := by
      unfold structVisitor
      simp only
      cases hl : h.getLast? with
      | none => rfl
      | some x =>
        obtain ⟨y, rfl⟩ := hg x (List.mem_of_getLast? hl)
        rfl
    have h0 := hd 0 v rfl
    have hlen : (h ++ [Except.ok (some (a h.length))]).length = h.length + 1 := by simp
    obtain ⟨h', hl, h1, h2, h3⟩ := array_probe (p := p) (b := b) (a := a) vs (h ++ [.ok (some (a h.length))])
      (by
        intro x hx
        rcases List.mem_append.mp hx with hx | hx
        · exact hg x hx
        · simp only [List.mem_singleton] at hx
          exact ⟨_, hx⟩)
      (by
        intro j w hj
        have := hd (j + 1) w (by simpa using hj)
        rw [hlen, show h.length + 1 + j = h.length + (j + 1) by omega]
        exact this)
    rw [hlen] at hl h1 h2 h3
    refine ⟨h', by simp only [List.length_cons]; omega, ?_, ?_, ?_⟩
    · intro j hj
      rw [h1 j (by omega), List.getElem?_append_left hj]
    · intro j hj hj'
      by_cases e : j = h.length
      · subst e
        rw [h1 _ (by omega)]
        simp
      · exact h2 j (by omega) (by simp only [List.length_cons] at hj'; omega)
    · have : h.length + (v :: vs).length = h.length + 1 + vs.length := by simp only [List.length_cons]; omega
      rw [this]
      exact .element hn h0 h3

/-- The answers over the members. -/
def memberAnswers (a : Nat → Info) : Nat → List (Str × Value) → List (Res (Option Info))
  | _, [] => []
  | i, m :: ms => .ok (some (.name m.1)) :: .ok (some (a i)) :: memberAnswers a (i + 1) ms

omit [Platform] [FloatLib] [TextLib] in
theorem names_answers (a : Nat → Info) : ∀ (ms : List (Str × Value)) (i : Nat), namesOf (memberAnswers a i ms) = ms.map Prod.fst
  | [], _ => rfl
  | m :: ms, i => congrArg (m.1 :: ·) (names_answers a ms (i + 1))

omit [Platform] [FloatLib] [TextLib] in
theorem answer_answers (a : Nat → Info) : ∀ (ms : List (Str × Value)) (i j : Nat), j < ms.length →
    (memberAnswers a i ms)[2 * j + 1]? = some (.ok (some (a (i + j))))
  | [], _, _, h => absurd h (Nat.not_lt_zero _)
  | m :: ms, i, 0, _ => rfl
  | m :: ms, i, j + 1, h => by
    have := answer_answers a ms (i + 1) j (by simpa using h)
    rw [show i + (j + 1) = i + 1 + j by omega]
    exact this

omit [Platform] [FloatLib] [TextLib] in
theorem answers_end (a : Nat → Info) : ∀ (ms : List (Str × Value)) (i j : Nat), ms.length ≤ j →
    (memberAnswers a i ms)[2 * j + 1]? = none
  | [], _, _, _ => rfl
  | m :: ms, i, 0, h => by simp at h
  | m :: ms, i, j + 1, h => answers_end a ms (i + 1) j (by simpa using h)

theorem map_probe {p : List Nat} {b : Bool} {a : Nat → Info} {n : Nat} : ∀ (ms : List (Str × Value)) (i : Nat)
    (h : List (Res (Option Info))), h.length = 2 * i → n = i + ms.length →
    (∀ j m, ms[j]? = some m → Deserialize probe m.2 (partType p b (i + j)) (.ok (a (i + j)))) →
      MapRun probe .str ((structVisitor p b).map n) ms none i h (.ok (mapInfo (h ++ memberAnswers a i ms) p)) [] n
  | [], i, h, hl, hn, _ => by
    have : n = i := by simpa using hn
    subst this
    refine .finish ?_
    unfold structVisitor
    simp only
    rw [if_pos (by omega)]
    simp [memberAnswers]
  | (k, v) :: ms, i, h, hl, hn, hd => by
    have h0 := hd 0 (k, v) rfl
    have hlen : n = i + 1 + ms.length := by simp only [List.length_cons] at hn; omega
    have ih := map_probe (p := p) (b := b) (a := a) (n := n) ms (i + 1) (h ++ [.ok (some (.name k))] ++ [.ok (some (a i))])
      (by simp only [List.length_append, List.length_singleton]; omega) hlen
      (by
        intro j m hj
        have := hd (j + 1) m (by simpa using hj)
        rw [show i + 1 + j = i + (j + 1) by omega]
        exact this)
    have e : h ++ [.ok (some (.name k))] ++ [.ok (some (a i))] ++ memberAnswers a (i + 1) ms = h ++ memberAnswers a i ((k, v) :: ms) := by
      simp [memberAnswers]
    rw [e] at ih
    have hk : (structVisitor p b).map n h = .key .key := by
      unfold structVisitor
      simp only
      rw [if_neg (by omega), if_pos (by omega)]
    have hv : (structVisitor p b).map n (h ++ [.ok (some (.name k))]) = .value (partType p b (i + 0)) := by
      unfold structVisitor
      simp only [List.length_append, List.length_singleton]
      rw [if_neg (by omega), if_neg (by omega)]
      congr 2
      omega
    exact .key hk (.value hv h0 ih)

/-- What is found in an array, if `sub` is found in its elements. -/
def arrayFound (sub : Nat → Value → Info) (vs : List Value) : List Nat → Info
  | [] => .seq vs.length
  | k :: _ => match vs[k]? with | some u => sub k u | none => .absent

/-- The same for objects. -/
def objectFound (sub : Nat → Value → Info) (ms : List (Str × Value)) : List Nat → Info
  | [] => .map (ms.map Prod.fst)
  | k :: _ => match ms[k]? with | some m => sub k m.2 | none => .absent

theorem array_finds {p : List Nat} {b : Bool} (hp : probe (.at p b) = .call .struct (structVisitor p b) caught)
    {sub : Nat → Value → Info} (hs : ∀ j u, Deserialize probe u (partType p b j) (.ok (sub j u))) (vs : List Value) :
    Deserialize probe (.array vs) (.at p b) (.ok (arrayFound sub vs p)) := by
  obtain ⟨h', hl, -, h2, run⟩ := array_probe (p := p) (b := b) (a := fun j => match vs[j]? with | some u => sub j u | none => .absent) vs []
    (by simp) (by
      intro j u hu
      simp only [List.length_nil, Nat.zero_add, hu]
      exact hs j u)
  simp only [List.length_nil, Nat.zero_add, Nat.zero_le, true_implies] at hl h2 run
  have hv : Visit probe (.array vs) .struct (structVisitor p b) (arrayEnd (.ok (seqInfo (h' ++ [.ok none]) p)) ([] : List Value).length vs.length) :=
    .struct (by intro _ _ _ e; cases e) (.array run)
  have hd := Deserialize.call hp hv
  have e : conclude caught (arrayEnd (.ok (seqInfo (h' ++ [.ok none]) p)) ([] : List Value).length vs.length) =
      .ok (arrayFound sub vs p) := by
    show Except.ok (seqInfo (h' ++ [.ok none]) p) = _
    congr 1
    cases p with
    | nil => simp [seqInfo, arrayFound, hl]
    | cons k p =>
      simp only [seqInfo, answerAt, arrayFound]
      by_cases hk : k < vs.length
      · rw [List.getElem?_append_left (by omega), h2 k hk]
      · rw [List.getElem?_append_right (by omega), List.getElem?_eq_none (show vs.length ≤ k by omega)]
        by_cases e : k = vs.length
        · simp [e, hl]
        · rw [List.getElem?_eq_none (by simp; omega)]
  rw [e] at hd
  exact hd

theorem object_finds {p : List Nat} {b : Bool} (hp : probe (.at p b) = .call .struct (structVisitor p b) caught)
    {sub : Nat → Value → Info} (hs : ∀ j u, Deserialize probe u (partType p b j) (.ok (sub j u))) (c : Str) (l : Option Str)
    (ms : List (Str × Value)) : Deserialize probe (.object c l ms) (.at p b) (.ok (objectFound sub ms p)) := by
  have run := map_probe (p := p) (b := b) (a := fun j => match ms[j]? with | some m => sub j m.2 | none => .absent) (n := ms.length) ms 0 []
    rfl (by simp) (by
      intro j m hm
      simp only [Nat.zero_add, hm]
      exact hs j m.2)
  have hd := Deserialize.call hp (.structObject (c := c) (l := l) (.mk run))
  have e : conclude caught (mapEnd (.ok (mapInfo ([] ++ memberAnswers (fun j => match ms[j]? with | some m => sub j m.2 | none => .absent) 0 ms) p))
      ([] : List (Str × Value)).length ms.length) = .ok (objectFound sub ms p) := by
    show Except.ok (mapInfo (memberAnswers _ 0 ms) p) = _
    congr 1
    cases p with
    | nil => simp [mapInfo, objectFound, names_answers]
    | cons k p =>
      simp only [mapInfo, answerAt, objectFound]
      by_cases hk : k < ms.length
      · rw [answer_answers _ _ _ _ hk]
        simp
      · rw [answers_end _ _ _ _ (by omega), List.getElem?_eq_none (show ms.length ≤ k by omega)]
  rw [e] at hd
  exact hd

theorem scalar_finds {p : List Nat} {b : Bool} (hp : probe (.at p b) = .call .struct (structVisitor p b) caught) {v : Value} {s : Scalar}
    (hv : Says v s) : Deserialize probe v (.at p b) (.ok (.scalar s)) :=
  .call hp ((C74_scalar hv (by decide)).mpr rfl)

/-- What a type finds is what is there. -/
theorem probe_finds : ∀ (p : List Nat) (b : Bool) (v : Value), Deserialize probe v (.at p b) (.ok (info p b v))
  | [], true, v => by
    have hp : probe (.at [] true) = .call .any anyVisitor caught := rfl
    have go : ∀ r, VisitAny probe v anyVisitor r → caught r = .ok (anyInfo v) → Deserialize probe v (.at [] true) (.ok (info [] true v)) := by
      intro r hv e
      have := Deserialize.call hp (.any (by decide) (by decide) hv)
      rw [show conclude caught r = .ok (anyInfo v) from e] at this
      exact this
    cases v with
    | array vs => exact go _ (.array (.finish rfl)) rfl
    | object c l ms =>
      cases ho : objectCall c l ms with
      | map => exact go _ (.object ho (.mk (.finish rfl))) (by simp only [anyInfo, ho]; rfl)
      | boxed s => exact go _ (.boxed ho) (by simp only [anyInfo, ho]; rfl)
      | list items size => exact go _ (.list ho (.finish rfl)) (by simp only [anyInfo, ho]; rfl)
      | fail e => exact go _ (.fail ho) (by simp only [anyInfo, ho]; rfl)
    | _ => exact go _ (.scalar rfl) rfl
  | [], false, v => by
    have hp : probe (.at [] false) = .call .struct (structVisitor [] false) caught := rfl
    cases v with
    | array vs => exact array_finds hp (sub := fun _ _ => .absent) (fun _ _ => .ignore rfl) vs
    | object c l ms => exact object_finds hp (sub := fun _ _ => .absent) (fun _ _ => .ignore rfl) c l ms
    | _ => exact scalar_finds hp (says_iff.mpr rfl)
  | k :: p, b, v => by
    have ih := probe_finds p b
    have hp : probe (.at (k :: p) b) = .call .struct (structVisitor (k :: p) b) caught := rfl
    have hs : ∀ j u, Deserialize probe u (partType (k :: p) b j) (.ok (if j = k then info p b u else .absent)) := by
      intro j u
      simp only [partType]
      by_cases e : j = k
      · rw [if_pos e, if_pos e]
        exact ih u
      · rw [if_neg e, if_neg e]
        exact .ignore rfl
    cases v with
    | array vs =>
      have := array_finds hp hs vs
      simp only [arrayFound, if_pos] at this
      exact this
    | object c l ms =>
      have := object_finds hp hs c l ms
      simp only [objectFound, if_pos] at this
      exact this
    | _ => exact scalar_finds hp (says_iff.mpr rfl)

/-! ## Values that are found to be the same -/

/-- The boxes in a value are told as scalars. -/
def Boxed (v : Value) : Prop :=
  ∀ cls ms, SubValue (.object cls none ms) v → ∀ c e P, cls.takeWhile (· ≠ 96) = c → (c, e, P) ∈ boxClasses →
    ∃ s, objectCall cls none ms = .boxed s

theorem boxed_of {v : Value} (h : BoxesHold v) : Boxed v := by
  intro cls ms hs c e P hc hb
  obtain ⟨w, x, rfl, hx⟩ := h cls ms hs c e P hc hb
  obtain ⟨f, ho, hf⟩ := objectCall_box hc hb [(lit "m_value", w)]
  obtain ⟨u, hu⟩ := box_content hb hx
  obtain ⟨sc, hsc⟩ : ∃ sc, Says u sc := by
    generalize RTy.erase P = Q at hu
    cases hu <;> exact ⟨_, by constructor⟩
  refine ⟨sc, ?_⟩
  rw [ho]
  unfold boxedCall
  have e : unboxR e P ([(lit "m_value", w)].map fun m => (m.1, decodeR m.2)) = .ok x := by
    show (match decodeR w P with
      | .ok d => if lit "m_value" = lit "m_value" then Except.ok d else .error (SerdeError.invalidType .map e)
      | .error e => .error e) = Except.ok x
    rw [hx]
    exact if_pos rfl
  rw [e]
  simp only [hf x u sc hu hsc]

/-- What is told about an object. -/
theorem object_info {cls : Str} {lib : Option Str} {ms : List (Str × Value)}
    (hb : ∀ c e P, lib = none → cls.takeWhile (· ≠ 96) = c → (c, e, P) ∈ boxClasses → ∃ s, objectCall cls lib ms = .boxed s) :
    (PlainObject cls lib ∧ callInfo (objectCall cls lib ms) = .failed (lit "m")) ∨
    (lib = none ∧ cls.takeWhile (· ≠ 96) = lit "System.Collections.Generic.List" ∧
      (callInfo (objectCall cls lib ms) = .failed (lit "s") ∨
       callInfo (objectCall cls lib ms) = .failed (lit "invalid system class: " ++ lit "System.Collections.Generic.List"))) ∨
    (lib = none ∧ ∃ s, objectCall cls lib ms = .boxed s) := by
  have list : lib = none → cls.takeWhile (· ≠ 96) = lit "System.Collections.Generic.List" →
      (callInfo (objectCall cls lib ms) = .failed (lit "s") ∨
       callInfo (objectCall cls lib ms) = .failed (lit "invalid system class: " ++ lit "System.Collections.Generic.List")) := by
    rintro rfl hc
    rw [objectCall_listOf hc]
    cases listOf ms with
    | none => exact .inr rfl
    | some x => exact .inl rfl
  rcases object_kinds cls lib ms with hp | ⟨rfl, c, e, P, hc, hbx⟩ | ⟨items, size, hl⟩ | ⟨rfl, hc, hl⟩
  · exact .inl ⟨hp, by rw [objectCall_plain ms hp]; rfl⟩
  · exact .inr (.inr ⟨rfl, hb c e P rfl hc hbx⟩)
  · obtain ⟨_, _, _, e, hc, _⟩ := hl
    cases e
    exact .inr (.inl ⟨rfl, hc, list rfl hc⟩)
  · exact .inr (.inl ⟨rfl, hc, list rfl hc⟩)

omit [FloatLib] [TextLib] in
/-- The class of a box is known from what is told. -/
theorem box_class {c c' : Str} {P P' : Ty} {x x' : Dyn} {u u' : Value} {s : Scalar} (h : BoxedPrim c P x u) (hs : Says u s)
    (h' : BoxedPrim c' P' x' u') (hs' : Says u' s) : c = c' := by
  cases h <;> cases hs <;> cases hs' <;> cases h' <;> rfl

theorem sameClass_of {cls cls' : Str} {lib lib' : Option Str} {ms ms' : List (Str × Value)}
    (hb : ∀ c e P, lib = none → cls.takeWhile (· ≠ 96) = c → (c, e, P) ∈ boxClasses → ∃ s, objectCall cls lib ms = .boxed s)
    (hb' : ∀ c e P, lib' = none → cls'.takeWhile (· ≠ 96) = c → (c, e, P) ∈ boxClasses → ∃ s, objectCall cls' lib' ms' = .boxed s)
    (h : callInfo (objectCall cls lib ms) = callInfo (objectCall cls' lib' ms')) : SameClass cls lib cls' lib' := by
  have hsm : (lit "s" = lit "m") = False := by decide
  have him : (lit "invalid system class: " ++ lit "System.Collections.Generic.List" = lit "m") = False := by decide
  rcases object_info hb with ⟨hp, e⟩ | ⟨hl, hc, e⟩ | ⟨hl, s, e⟩ <;>
    rcases object_info hb' with ⟨hp', e'⟩ | ⟨hl', hc', e'⟩ | ⟨hl', s', e'⟩
  · exact .inl ⟨hp, hp'⟩
  · exfalso
    rcases e' with e' | e' <;> rw [e, e'] at h <;> cases h
  · exfalso
    rw [e, e'] at h
    cases h
  · exfalso
    rcases e with e | e <;> rw [e, e'] at h <;> cases h
  · exact .inr ⟨hl, hl', hc.trans hc'.symm⟩
  · exfalso
    rw [e'] at h
    rcases e with e | e <;> rw [e] at h <;> cases h
  · exfalso
    rw [e, e'] at h
    cases h
  · exfalso
    rw [e] at h
    rcases e' with e' | e' <;> rw [e'] at h <;> cases h
  · rw [e, e'] at h
    cases h
    obtain ⟨c, _, _, _, _, _, _, hc, _, _, _, hbp, hs⟩ := objectCall_boxed e
    obtain ⟨c', _, _, _, _, _, _, hc', _, _, _, hbp', hs'⟩ := objectCall_boxed e'
    exact .inr ⟨hl, hl', by rw [hc, hc', box_class hbp hs hbp' hs']⟩

omit [FloatLib] [TextLib] in
theorem scalarInfo_of {v : Value} {s : Scalar} (h : scalarInfo v = .scalar s) : Says v s := by
  unfold scalarInfo at h
  split at h
  · rename_i e
    cases h
    exact says_iff.mpr e
  · cases h

theorem looks_of : ∀ (n : Nat) {v v' : Value}, sizeOf v < n → Boxed v → Boxed v' → (∀ p b, info p b v = info p b v') → LookSame v v'
  | 0, _, _, hn, _, _, _ => absurd hn (Nat.not_lt_zero _)
  | n + 1, v, v', hn, hb, hb', h => by
    have hstruct : structInfo v = structInfo v' := h [] false
    have hany : anyInfo v = anyInfo v' := h [] true
    have leaf : ∀ {s}, scalarOf v = some s → structInfo v = .scalar s → LookSame v v' := by
      intro s hs e
      rw [hstruct] at e
      refine .scalar (says_iff.mpr hs) ?_
      cases v' <;> first | (cases e; done) | exact scalarInfo_of e
    cases v with
    | array vs =>
      cases v' with
      | array vs' =>
        have hl : vs.length = vs'.length := by
          have : Info.seq vs.length = .seq vs'.length := hstruct
          injection this
        refine .array hl ?_
        intro p hp
        obtain ⟨k, hk, e⟩ := List.mem_iff_getElem.mp hp
        simp only [List.getElem_zip] at e
        have hk1 : k < vs.length := by simp only [List.length_zip] at hk; omega
        have hk2 : k < vs'.length := by omega
        subst e
        have hm := List.getElem_mem hk1
        refine looks_of n ?_ ?_ ?_ ?_
        · have := List.sizeOf_lt_of_mem hm
          simp only [Value.array.sizeOf_spec] at hn
          show sizeOf vs[k] < n
          omega
        · exact fun cls ms hs => hb cls ms (.item hm hs)
        · exact fun cls ms hs => hb' cls ms (.item (List.getElem_mem hk2) hs)
        · intro q b
          have := h (k :: q) b
          simp only [info, List.getElem?_eq_getElem hk1, List.getElem?_eq_getElem hk2] at this
          exact this
      | _ => cases hstruct
    | object cls lib ms =>
      cases v' with
      | object cls' lib' ms' =>
        have hl : ms.map Prod.fst = ms'.map Prod.fst := by
          have : Info.map (ms.map Prod.fst) = .map (ms'.map Prod.fst) := hstruct
          injection this
        have hlen : ms.length = ms'.length := by
          have := congrArg List.length hl
          simpa using this
        refine .object (sameClass_of ?_ ?_ hany) hl ?_
        · rintro c e P rfl
          exact hb _ _ (.refl _) c e P
        · rintro c e P rfl
          exact hb' _ _ (.refl _) c e P
        intro p hp
        obtain ⟨k, hk, e⟩ := List.mem_iff_getElem.mp hp
        simp only [List.getElem_zip] at e
        have hk1 : k < ms.length := by simp only [List.length_zip] at hk; omega
        have hk2 : k < ms'.length := by omega
        subst e
        have hm := List.getElem_mem hk1
        refine looks_of n ?_ ?_ ?_ ?_
        · have h1 := List.sizeOf_lt_of_mem hm
          have h2 : sizeOf ms[k] = 1 + sizeOf ms[k].1 + sizeOf ms[k].2 := by
            generalize ms[k] = m
            obtain ⟨_, _⟩ := m
            rfl
          simp only [Value.object.sizeOf_spec] at hn
          show sizeOf ms[k].2 < n
          omega
        · exact fun cls ms hs => hb cls ms (.member hm hs)
        · exact fun cls ms hs => hb' cls ms (.member (List.getElem_mem hk2) hs)
        · intro q b
          have := h (k :: q) b
          simp only [info, List.getElem?_eq_getElem hk1, List.getElem?_eq_getElem hk2] at this
          exact this
      | _ => cases hstruct
    | _ => exact leaf rfl rfl

/-! ## Messages -/

/-- What is found in a message. -/
def messageInfo (p : List Nat) (b : Bool) : RemotingMessage → Info
  | .value v => info p b v
  | .methodCall _ => .failed (SerdeError.invalidType .methodCall []).text
  | .methodReturn _ => .failed (SerdeError.invalidType .methodReturn []).text

theorem texts_differ : (SerdeError.invalidType .methodCall []).text ≠ (SerdeError.invalidType .methodReturn []).text := by
  show lit "invalid type: " ++ lit "method call" ++ lit ", expected " ++ [] ≠ lit "invalid type: " ++ lit "method return" ++ lit ", expected " ++ []
  decide

theorem message_probe (m : RemotingMessage) (p : List Nat) (b : Bool) :
    DeserializeMessage probe m (.at p b) (.ok (messageInfo p b m)) := by
  have call : ∀ c, DeserializeMessage probe (.methodCall c) (.at p b) (.ok (.failed (SerdeError.invalidType .methodCall []).text)) := by
    intro c
    match p, b with
    | [], true => exact .methodCall (m := .any) (V := anyVisitor) (after := caught) rfl
    | [], false => exact .methodCall (m := .struct) (V := structVisitor [] false) (after := caught) rfl
    | k :: p, b => exact .methodCall (m := .struct) (V := structVisitor (k :: p) b) (after := caught) rfl
  have ret : ∀ c, DeserializeMessage probe (.methodReturn c) (.at p b) (.ok (.failed (SerdeError.invalidType .methodReturn []).text)) := by
    intro c
    match p, b with
    | [], true => exact .methodReturn (m := .any) (V := anyVisitor) (after := caught) rfl
    | [], false => exact .methodReturn (m := .struct) (V := structVisitor [] false) (after := caught) rfl
    | k :: p, b => exact .methodReturn (m := .struct) (V := structVisitor (k :: p) b) (after := caught) rfl
  cases m with
  | methodCall c => exact call c
  | methodReturn c => exact ret c
  | value v =>
    have h := probe_finds p b v
    show DeserializeMessage probe (.value v) (.at p b) (Except.ok (info p b v))
    generalize Except.ok (info p b v) = r at h
    cases h with
    | ignore h => exact .ignore h
    | call h g =>
      cases g with
      | structObject g => exact .struct h (.structObject g)
      | struct hn g => exact .struct h (.struct hn g)
      | any _ hs g => exact .any h hs g
      | none =>
        exfalso
        match p, b with
        | [], true => cases h
        | [], false => cases h
        | k :: p, b => cases h
      | some =>
        exfalso
        match p, b with
        | [], true => cases h
        | [], false => cases h
        | k :: p, b => cases h

omit [FloatLib] [TextLib] in
theorem structInfo_ok (v : Value) (e : Str) : structInfo v ≠ .failed e := by
  cases v <;> simp [structInfo, scalarInfo, scalarOf]

/-- **C80** (complete) Messages that look different are told apart by some type, if their boxes hold primitives. -/
theorem C80_different {w w' : Bytes} {m m' : RemotingMessage} (hw : deserialize w = .ok m) (hw' : deserialize w' = .ok m')
    (hb : ∀ v, m = .value v → BoxesHold v) (hb' : ∀ v, m' = .value v → BoxesHold v) (h : ¬ MessagesLookSame m m') :
    ∃ (ι α : Type) (impls : ι → Impl ι α) (i : ι) (a b : α), a ≠ b ∧ FromSlice impls w i (.ok a) ∧ FromSlice impls w' i (.ok b) := by
  have hf : ∀ {w m}, deserialize w = .ok m → ∀ p b, FromSlice probe w (.at p b) _ := fun hw p b => .ok hw (message_probe _ p b)
  apply Classical.byContradiction
  intro hno
  have hall : ∀ p b, (messageInfo p b m) = (messageInfo p b m') := by
    intro p b
    apply Classical.byContradiction
    intro hne
    exact hno ⟨Probe, Info, probe, .at p b, _, _, hne, hf hw p b, hf hw' p b⟩
  apply h
  cases m with
  | value v =>
    cases m' with
    | value v' => exact .value (looks_of _ (Nat.lt_succ_self _) (boxed_of (hb v rfl)) (boxed_of (hb' v' rfl)) hall)
    | methodCall c => exact absurd (hall [] false) (structInfo_ok v _)
    | methodReturn c => exact absurd (hall [] false) (structInfo_ok v _)
  | methodCall c =>
    cases m' with
    | value v' => exact absurd (hall [] false).symm (structInfo_ok v' _)
    | methodCall c' => exact .call
    | methodReturn c' =>
      exfalso
      have := hall [] false
      injection this with this
      exact texts_differ this
  | methodReturn c =>
    cases m' with
    | value v' => exact absurd (hall [] false).symm (structInfo_ok v' _)
    | methodReturn c' => exact .return
    | methodCall c' =>
      exfalso
      have := hall [] false
      injection this with this
      exact texts_differ this.symm

/-- **C80** Exactly the messages that look the same are read in the same way by all types. -/
theorem C80 {w w' : Bytes} {m m' : RemotingMessage} (hw : deserialize w = .ok m) (hw' : deserialize w' = .ok m')
    (hb : ∀ v, m = .value v → BoxesHold v) (hb' : ∀ v, m' = .value v → BoxesHold v) :
    MessagesLookSame m m' ↔ ∀ (ι α : Type) (impls : ι → Impl ι α) (i : ι) (r : Res α), FromSlice impls w i r ↔ FromSlice impls w' i r := by
  constructor
  · intro h ι α impls i r
    exact C80_same hw hw' h i r
  · intro h
    apply Classical.byContradiction
    intro hne
    obtain ⟨ι, α, impls, i, a, b, hab, h1, h2⟩ := C80_different hw hw' hb hb' hne
    have := C75_unique ((h _ _ _ _ _).mp h1) h2
    cases this
    exact hab rfl

/-! ## Consequences -/

omit [FloatLib] [TextLib] in
theorem ClassesRenamed.lookSame : ∀ {v v' : Value}, ClassesRenamed v v' → LookSame v v'
  | v, _, .leaf h => by
    cases v <;> first | exact h.elim | exact .scalar (says_iff.mpr rfl) (says_iff.mpr rfl)
  | _, _, .array hl h => .array hl fun p hp => (h p hp).lookSame
  | _, _, .system (lib := lib) hm h => .object (match lib with
      | none => .inr ⟨rfl, rfl, rfl⟩
      | some _ => .inl ⟨.inl (by simp), .inl (by simp)⟩) hm fun p hp => (h p hp).lookSame
  | _, _, .plain h1 h2 hm h => .object (.inl ⟨h1, h2⟩) hm fun p hp => (h p hp).lookSame

/-- **C80** (names) Renaming classes, moving them to another library or changing the version of a library makes no difference to any
type, unless system classes are concerned. -/
theorem C80_names {ι α : Type} {impls : ι → Impl ι α} {w w' : Bytes} {v v' : Value} (hw : deserialize w = .ok (.value v))
    (hw' : deserialize w' = .ok (.value v')) (h : ClassesRenamed v v') (i : ι) (r : Res α) :
    FromSlice impls w i r ↔ FromSlice impls w' i r :=
  C80_same hw hw' (.value h.lookSame) i r

/-- **C80** (standard types) In particular, the standard and derived types have the same results and error texts. -/
theorem C80_standard {w w' : Bytes} {m m' : RemotingMessage} (hw : deserialize w = .ok m) (hw' : deserialize w' = .ok m')
    (h : MessagesLookSame m m') (T : RTy) : (∀ d, fromSliceR T w = .ok d ↔ fromSliceR T w' = .ok d) ∧
      ∀ t, (∃ e, fromSliceR T w = .err e ∧ e.text = t) ↔ ∃ e, fromSliceR T w' = .err e ∧ e.text = t := by
  have ok : ∀ {w d}, fromSliceR T w = .ok d ↔ FromSlice rust w (.ty T) (.ok d) := by
    intro w d
    rw [C76_from_slice]
    simp
  have err : ∀ {w t}, (∃ e, fromSliceR T w = .err e ∧ e.text = t) ↔ FromSlice rust w (.ty T) (.error t) := by
    intro w t
    rw [C76_from_slice]
    constructor
    · rintro ⟨e, h, rfl⟩
      exact .inr ⟨e, h, rfl⟩
    · rintro (⟨d, _, h⟩ | ⟨e, h, h'⟩)
      · cases h
      · cases h'
        exact ⟨e, h, rfl⟩
  exact ⟨fun d => by rw [ok, ok, C80_same hw hw' h], fun t => by rw [err, err, C80_same hw hw' h]⟩

/-! ## Examples -/

/-- An event of one assembly, and one of a later version of it, with other types. -/
def oldEvent : Value := .object (lit "A.E") (some (lit "A, Version=1.0.0.0")) [(lit "at", .timeSpan 5)]
def newEvent : Value := .object (lit "B.E") (some (lit "A, Version=2.0.0.0")) [(lit "at", .int64 5)]
/-- The same with a number of another type. -/
def otherEvent : Value := .object (lit "B.E") (some (lit "A, Version=2.0.0.0")) [(lit "at", .int32 5)]

omit [FloatLib] [TextLib] in
theorem events_look : LookSame oldEvent newEvent :=
  .object (.inl ⟨.inl (by simp), .inl (by simp)⟩) rfl (by
    intro p hp
    simp only [List.zip_cons_cons, List.zip_nil_right, List.mem_singleton] at hp
    subst hp
    exact .scalar (.timeSpan 5) (.int64 5))

omit [FloatLib] [TextLib] in
theorem events_differ : ¬ LookSame oldEvent otherEvent := by
  intro h
  cases h with
  | scalar h => cases h
  | object _ _ h =>
    cases h _ List.mem_cons_self with
    | scalar h h' => cases h; cases h'

end

section
variable [Platform]

theorem events_ok : deserialize (write (.value oldEvent)) = .ok (.value oldEvent) ∧
    deserialize (write (.value newEvent)) = .ok (.value newEvent) ∧
    deserialize (write (.value otherEvent)) = .ok (.value otherEvent) := by
  refine ⟨?_, ?_, ?_⟩ <;> platform_decide

variable [FloatLib] [TextLib]

theorem event_boxes {c l k : Str} {v : Value} (hv : IsLeaf v) : BoxesHold (.object c (some l) [(k, v)]) := by
  intro cls ms h
  cases h with
  | member hm h =>
    simp only [List.mem_singleton, Prod.mk.injEq] at hm
    obtain ⟨rfl, rfl⟩ := hm
    cases h <;> exact hv.elim

example (ι α : Type) (impls : ι → Impl ι α) (i : ι) (r : Res α) :
    FromSlice impls (write (.value oldEvent)) i r ↔ FromSlice impls (write (.value newEvent)) i r :=
  (C80 events_ok.1 events_ok.2.1 (by rintro v e; cases e; exact event_boxes trivial) (by rintro v e; cases e; exact event_boxes trivial)).mp
    (.value events_look) ι α impls i r

example : ∃ (ι α : Type) (impls : ι → Impl ι α) (i : ι) (a b : α), a ≠ b ∧
    FromSlice impls (write (.value oldEvent)) i (.ok a) ∧ FromSlice impls (write (.value otherEvent)) i (.ok b) :=
  C80_different events_ok.1 events_ok.2.2 (by rintro v e; cases e; exact event_boxes trivial)
    (by rintro v e; cases e; exact event_boxes trivial) (fun h => by cases h with | value h => exact events_differ h)

end

end Nrbf.Visitors
