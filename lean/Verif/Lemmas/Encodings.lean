import Verif.Spec.Encodings
import Verif.Props.Records
import Verif.Props.Messages

/-! # Every way to write a value is in the grammar -/

set_option autoImplicit false

namespace Nrbf.Spec

/-- The libraries known after some pieces. -/
def after (known : Nat → Option Str) : List Token → Nat → Option Str
  | [] => known
  | .bytes _ :: ts => after known ts
  | .library id name _ :: ts => after (fun k => if k = id then some name else known k) ts
  | .needs _ _ :: ts => after known ts

theorem after_append (ts us : List Token) : ∀ L, after L (ts ++ us) = after (after L ts) us := by
  induction ts with
  | nil => intro L; rfl
  | cons t ts ih => intro L; cases t <;> exact ih _

theorem declared_append (ts us : List Token) :
    ∀ L, Declared L (ts ++ us) ↔ Declared L ts ∧ Declared (after L ts) us := by
  induction ts with
  | nil => intro L; simp [Declared, after]
  | cons t ts ih =>
    intro L
    cases t with
    | bytes b => exact ih _
    | library id name b =>
      simp only [List.cons_append, Declared, after, ih, and_assoc]
    | needs id name =>
      simp only [List.cons_append, Declared, after, ih, and_assoc]

theorem written_append (ts us : List Token) : written (ts ++ us) = written ts ++ written us := by
  simp [written]

theorem written_cons (t : Token) (us : List Token) : written (t :: us) = t.write ++ written us := rfl

/-- These libraries, and no objects. -/
def env (L : Nat → Option Str) : Env := ⟨L, fun _ => none⟩

theorem env_drop (L : Nat → Option Str) (id : Nat) : (env L).drop id = env L := by
  unfold Env.drop env
  congr 1
  funext k
  simp

/-- A first byte that does not start a library. -/
def Starts (i : Bytes) : Prop := i.head? ≠ some 12

theorem library_step {L : Nat → Option Str} {id : Nat} {name : Str} {b : Bytes} (hb : IsLibrary id name b)
    (h : L id = none) (i : Bytes) :
    OptLib (env L) (b ++ i) (env fun k => if k = id then some name else L k) i :=
  OptLib.some (E := env L) hb h

theorem libraries_one {f : List Token} (h : Libraries 1 f) {L : Nat → Option Str} (hd : Declared L f) {i : Bytes}
    (hi : Starts i) : OptLib (env L) (written f ++ i) (env (after L f)) i := by
  obtain ⟨hl, hf⟩ := h
  match f, hl, hf, hd with
  | [], _, _, _ => exact .none (.inl hi)
  | [t], _, hf, hd =>
    obtain ⟨id, name, b, hb, rfl⟩ := hf t (.head _)
    have := library_step hb hd.1 i
    simpa [written, Token.write, after] using this

theorem libraries_two {f : List Token} (h : Libraries 2 f) {L : Nat → Option Str} (hd : Declared L f) {i : Bytes}
    (hi : Starts i) : ∃ L1 i1, OptLib (env L) (written f ++ i) (env L1) i1 ∧ OptLib (env L1) i1 (env (after L f)) i := by
  obtain ⟨hl, hf⟩ := h
  match f, hl, hf, hd with
  | [], _, _, _ => exact ⟨_, _, .none (.inl hi), .none (.inl hi)⟩
  | t :: f, hl, hf, hd =>
    obtain ⟨id, name, b, hb, rfl⟩ := hf t (.head _)
    refine ⟨_, written f ++ i, ?_, libraries_one ⟨by simpa using hl, fun t ht => hf t (.tail _ ht)⟩ hd.2 hi⟩
    have := library_step hb hd.1 (written f ++ i)
    simpa [written_cons, Token.write] using this

theorem libraries_three {f : List Token} (h : Libraries 3 f) {L : Nat → Option Str} (hd : Declared L f) {i : Bytes}
    (hi : Starts i) : ∃ L1 i1 L2 i2, OptLib (env L) (written f ++ i) (env L1) i1 ∧ OptLib (env L1) i1 (env L2) i2 ∧
      OptLib (env L2) i2 (env (after L f)) i := by
  obtain ⟨hl, hf⟩ := h
  match f, hl, hf, hd with
  | [], _, _, _ => exact ⟨_, _, _, _, .none (.inl hi), .none (.inl hi), .none (.inl hi)⟩
  | t :: f, hl, hf, hd =>
    obtain ⟨id, name, b, hb, rfl⟩ := hf t (.head _)
    obtain ⟨L2, i2, h2, h3⟩ := libraries_two ⟨by simpa using hl, fun t ht => hf t (.tail _ ht)⟩ hd.2 hi
    refine ⟨_, _, L2, i2, ?_, h2, h3⟩
    have := library_step hb hd.1 (written f ++ i)
    simpa [written_cons, Token.write] using this

theorem starts_nulls {n : Nat} {b : Bytes} (h : IsNulls n b) (i : Bytes) : Starts (b ++ i) := by
  rcases h with ⟨_, rfl⟩ | ⟨_, _, rfl⟩ | ⟨_, _, rfl⟩ <;> simp [Starts]

theorem starts_string {id : Nat} {s : Str} {b : Bytes} (h : IsObjectString id s b) (i : Bytes) : Starts (b ++ i) := by
  obtain ⟨_, _, _, _, rfl⟩ := h; simp [Starts]

theorem starts_reference {id : Nat} {b : Bytes} (h : IsReference id b) (i : Bytes) : Starts (b ++ i) := by
  obtain ⟨_, _, rfl⟩ := h; simp [Starts]

theorem starts_class {c : ClassHead} {b : Bytes} (h : IsClassHead c b) (i : Bytes) : Starts (b ++ i) := by
  obtain ⟨_, _, _, _, _, _, _, _, _, _, _, _, rfl⟩ := h
  unfold ClassHead.tag
  cases c.types <;> cases c.library <;> simp [Starts]

section
variable [Platform]

theorem starts_primitive {v : Value} {b : Bytes} (h : IsTypedPrimitive v b) (i : Bytes) : Starts (b ++ i) := by
  obtain ⟨_, _, _, rfl⟩ := h; simp [Starts]

theorem starts_bare {t : PrimitiveType} {v : Value} {b : Bytes} (h : IsPrimitive t v b) (hb : b.head? ≠ some 12) (i : Bytes) :
    Starts (b ++ i) := by
  cases b with
  | cons x b => simpa [Starts] using hb
  | nil =>
    exfalso
    unfold IsPrimitive at h
    split at h
    case h_4 =>
      obtain ⟨s, ⟨p, ⟨gs, last, _, _, _, _, rfl, _⟩, _, h⟩, _⟩ := h
      simp at h
    all_goals first
      | exact h
      | (simp [le, leInt] at h)

/-- What has to come later for the slot to become the value. -/
def Later (slot : Slot) (v : Value) (l : List Token) : Prop :=
  ∀ {L : Nat → Option Str} {slots : List Slot} {vs : List Value} {i : Bytes} {E' : Env} {i' : Bytes}, Declared L l →
    Resolve slots (env (after L l)) i vs E' i' → Resolve (slot :: slots) (env L) (written l ++ i) (v :: vs) E' i'

/-- The same for several. -/
def LaterAll (slots : List Slot) (vs : List Value) (l : List Token) : Prop :=
  ∀ {L : Nat → Option Str} {slots' : List Slot} {vs' : List Value} {i : Bytes} {E' : Env} {i' : Bytes}, Declared L l →
    Resolve slots' (env (after L l)) i vs' E' i' →
    Resolve (slots ++ slots') (env L) (written l ++ i) (vs ++ vs') E' i'

theorem later_value (v : Value) : Later (.value v) v [] := fun _ h => .value h

theorem later_null : Later (.nulls 1) .null [] := fun _ h => .nulls (n := 1) h

theorem later_ref {id : Nat} {v : Value} {ts : List Token}
    (h : ∀ (L : Nat → Option Str) (i : Bytes), Declared L ts → Record (env L) (written ts ++ i) id v (env (after L ts)) i) :
    Later (.ref id) v ts := fun hd hr => .next rfl (h _ _ hd) (by rwa [env_drop])

theorem laterAll_nil : LaterAll [] [] [] := fun _ h => h

theorem laterAll_cons {slot : Slot} {v : Value} {l : List Token} {slots : List Slot} {vs : List Value} {ls : List Token}
    (h1 : Later slot v l) (h2 : LaterAll slots vs ls) : LaterAll (slot :: slots) (v :: vs) (l ++ ls) := by
  intro L slots' vs' i E' i' hd hr
  rw [declared_append] at hd
  rw [after_append] at hr
  rw [written_append, List.append_assoc]
  exact h1 hd.1 (h2 hd.2 hr)

theorem laterAll_nulls {n : Nat} {slots : List Slot} {vs : List Value} {ls : List Token} (h : LaterAll slots vs ls) :
    LaterAll (.nulls n :: slots) (List.replicate n .null ++ vs) ls := by
  intro L slots' vs' i E' i' hd hr
  rw [List.append_assoc]
  exact .nulls (h hd hr)

theorem laterAll_resolve {slots : List Slot} {vs : List Value} {ls : List Token} (h : LaterAll slots vs ls)
    {L : Nat → Option Str} (hd : Declared L ls) (i : Bytes) :
    Resolve slots (env L) (written ls ++ i) vs (env (after L ls)) i := by
  have := h hd (.nil (E := env (after L ls)) (i := i))
  simpa using this

theorem memberTypes_length {c : ClassHead} {b : Bytes} (h : IsClassHead c b) :
    c.memberTypes.length = c.memberNames.length := by
  obtain ⟨_, _, _, _, _, _, _, _, _, _, h, _⟩ := h
  unfold ClassHead.memberTypes
  cases ht : c.types with
  | none => simp
  | some ts => rw [ht] at h; simpa using h.1

theorem each_length {Ts : List (Option MemberType)} {vs : List Value} {n l : List Token} :
    Each Ts vs n l → Ts.length = vs.length
  | .nil => rfl
  | .cons _ h => by simp [each_length h]

/-- The one declared type or element: its slot. -/
def ElemOk (T : Option MemberType) (v : Value) (n l : List Token) : Prop :=
  ∃ slot : Slot, slot.size = 1 ∧
    (∀ {L : Nat → Option Str} {i : Bytes}, Declared L n → Member T (env L) (written n ++ i) slot (env (after L n)) i) ∧
    Later slot v l

/-- Member or element after at most one library. -/
theorem elem_one {T : Option MemberType} {v : Value} {f : List Token} {b : Bytes} {l : List Token} {slot : Slot}
    (hf : Libraries 1 f) (hb : ∀ i, Starts (b ++ i)) (hs : slot.size = 1)
    (hm : ∀ {E : Env} {i : Bytes} {E1 : Env} {i' : Bytes}, OptLib E i E1 (b ++ i') → Member T E i slot E1 i')
    (hl : Later slot v l) : ElemOk T v (f ++ [.bytes b]) l := by
  refine ⟨slot, hs, ?_, hl⟩
  intro L i hd
  rw [declared_append] at hd
  have h := libraries_one hf hd.1 (hb i)
  rw [written_append, after_append, List.append_assoc]
  have e : written [.bytes b] = b := by simp [written, Token.write]
  rw [e]
  exact hm h

mutual
theorem inPlace_ok {v : Value} {b : Bytes} {l : List Token} : InPlace v b l →
    ∃ slot : Slot, slot.size = 1 ∧ (∀ i, Starts (b ++ i)) ∧
      (∀ {E : Env} {i : Bytes} {E1 : Env} {i' : Bytes}, OptLib E i E1 (b ++ i') → Member none E i slot E1 i') ∧
      Later slot v l
  | .primitive h => ⟨.value _, rfl, starts_primitive h, (fun ho => .primitive ho h), later_value _⟩
  | .string h => ⟨.value _, rfl, starts_string h, (fun ho => .string ho h), later_value _⟩
  | .null h => ⟨.nulls 1, rfl, starts_nulls h, (fun ho => .nulls ho h), later_null⟩
  | .reference h hr => ⟨.ref _, rfl, starts_reference h, (fun ho => .reference ho h), later_ref (rec_ok hr)⟩

theorem elem_ok {T : Option MemberType} {v : Value} {n l : List Token} : Elem T v n l → ElemOk T v n l
  | .any hf h => by
    obtain ⟨slot, hs, hb, hm, hl⟩ := inPlace_ok h
    exact elem_one hf hb hs hm hl
  | .anyObject (f := f) (ts := ts) hf h => by
    obtain ⟨name, lib, ms, rfl, hb, hc⟩ := obj_ok h
    refine ⟨.value _, rfl, ?_, later_value _⟩
    intro L i hd
    rw [declared_append] at hd
    obtain ⟨L1, i1, h1, h2⟩ := libraries_two hf hd.1 (hb i)
    rw [written_append, after_append, List.append_assoc]
    exact .object h1 (hc hd.2 h2)
  | .object (f := f) (b := b) hT hf h => by
    obtain ⟨slot, hs, hb, hm, hl⟩ := inPlace_ok h
    refine ⟨slot, hs, ?_, hl⟩
    intro L i hd
    rw [declared_append] at hd
    obtain ⟨L1, i1, h1, h2⟩ := libraries_two hf hd.1 (hb i)
    rw [written_append, after_append, List.append_assoc]
    have e : written [.bytes b] = b := by simp [written, Token.write]
    rw [e]
    rcases hT with rfl | rfl
    · exact .typedObject h1 (hm h2)
    · exact .typedObjectArray h1 (hm h2)
  | .objectObject hT hf h => by
    obtain ⟨name, lib, ms, rfl, hb, hc⟩ := obj_ok h
    refine ⟨.value _, rfl, ?_, later_value _⟩
    intro L i hd
    rw [declared_append] at hd
    obtain ⟨L1, i1, L2, i2, h1, h2, h3⟩ := libraries_three hf hd.1 (hb i)
    rw [written_append, after_append, List.append_assoc]
    rcases hT with rfl | rfl
    · exact .typedObject h1 (.object h2 (hc hd.2 h3))
    · exact .typedObjectArray h1 (.object h2 (hc hd.2 h3))
  | .primitive hf h h12 => elem_one (slot := .value _) hf (starts_bare h h12) rfl (fun ho => .typedPrimitive ho h) (later_value _)
  | .string hf h => elem_one (slot := .value _) hf (starts_string h) rfl (fun ho => .typedString ho h) (later_value _)
  | .systemClass hf h => by
    obtain ⟨name, lib, ms, e, hb, hc⟩ := obj_ok h
    cases e
    refine ⟨.value _, rfl, ?_, later_value _⟩
    intro L i hd
    rw [declared_append] at hd
    obtain ⟨L1, i1, h1, h2⟩ := libraries_two hf hd.1 (hb i)
    rw [written_append, after_append, List.append_assoc]
    exact .systemClass h1 (hc hd.2 h2)
  | .systemClassNull hf h => elem_one (slot := .nulls 1) hf (starts_nulls h) rfl (fun ho => .systemClassNulls ho h) later_null
  | .class (k := k) (library := library) (f := f) (g := g) (ts := ts) hf hg hfg h => by
    obtain ⟨name, lib, ms, e, hb, hc⟩ := obj_ok h
    cases e
    refine ⟨.value _, rfl, ?_, later_value _⟩
    intro L i hd
    rw [declared_append] at hd
    obtain ⟨hd1, hk, hd2⟩ := hd
    rw [declared_append] at hd2
    have h2 := libraries_one hg hd2.1 (hb i)
    have h1 : OptLib (env L) (written f ++ (written g ++ (written ts ++ i))) (env (after L f)) (written g ++ (written ts ++ i)) := by
      by_cases h0 : f = []
      · subst h0
        rw [hfg rfl]
        exact .none (.inl (hb i))
      · obtain ⟨hl, hm⟩ := hf
        match f, h0, hl, hm, hd1 with
        | [t], _, _, hm, hd1 =>
          obtain ⟨id, nm, b, hb', rfl⟩ := hm t (.head _)
          have := library_step hb' hd1.1 (written g ++ (written ts ++ i))
          simpa [written, Token.write, after] using this
    have := Member.class h1 hk (hc hd2.2 h2)
    rw [after_append]
    simp only [after, after_append]
    have e : written (f ++ Token.needs k library :: (g ++ ts)) ++ i = written f ++ (written g ++ (written ts ++ i)) := by
      simp [written, Token.write]
    rw [e]
    exact this
  | .classNull (k := k) (library := library) (f := f) (b := b) hf h => by
    refine ⟨.nulls 1, rfl, ?_, later_null⟩
    intro L i hd
    rw [declared_append] at hd
    have h1 := libraries_one hf hd.1 (starts_nulls h i)
    rw [after_append]
    have e : written (f ++ [.needs k library, .bytes b]) ++ i = written f ++ (b ++ i) := by
      simp [written, Token.write]
    rw [e]
    exact .classNulls h1 hd.2.1 h
  | .stringArrayString hf h =>
    elem_one (slot := .value _) hf (starts_string h) rfl (fun ho => .stringArrayString ho h) (later_value _)
  | .stringArrayReference hf h hr =>
    elem_one (slot := .ref _) hf (starts_reference h) rfl (fun ho => .stringArrayReference ho h)
      (later_ref (rec_ok hr))
  | .stringArrayNull hf h =>
    elem_one (slot := .nulls 1) hf (starts_nulls h) rfl (fun ho => .stringArrayNulls ho h) later_null
  | .primitiveArray hf h hr =>
    elem_one (slot := .ref _) hf (starts_reference h) rfl (fun ho => .primitiveArray ho h) (later_ref (rec_ok hr))

theorem each_ok {Ts : List (Option MemberType)} {vs : List Value} {n l : List Token} : Each Ts vs n l →
    ∃ slots : List Slot,
      (∀ {L : Nat → Option Str} {i : Bytes}, Declared L n → Members Ts (env L) (written n ++ i) slots (env (after L n)) i) ∧
      LaterAll slots vs l
  | .nil => ⟨[], (fun _ => .nil), laterAll_nil⟩
  | .cons h hs => by
    obtain ⟨slot, _, hm, hl⟩ := elem_ok h
    obtain ⟨slots, hms, hls⟩ := each_ok hs
    refine ⟨slot :: slots, ?_, laterAll_cons hl hls⟩
    intro L i hd
    rw [declared_append] at hd
    rw [written_append, after_append, List.append_assoc]
    exact .cons (hm hd.1) (hms hd.2)

theorem elems_ok {T : Option MemberType} {vs : List Value} {n l : List Token} (hT : T = none ∨ T = some .stringArray) :
    Elems T vs n l →
    ∃ slots : List Slot,
      (∀ {L : Nat → Option Str} {i : Bytes}, Declared L n →
        Fill T vs.length (env L) (written n ++ i) slots (env (after L n)) i) ∧
      LaterAll slots vs l
  | .nil => ⟨[], (fun _ => .done), laterAll_nil⟩
  | .cons h hs => by
    obtain ⟨slot, h1, hm, hl⟩ := elem_ok h
    obtain ⟨slots, hms, hls⟩ := elems_ok hT hs
    refine ⟨slot :: slots, ?_, laterAll_cons hl hls⟩
    intro L i hd
    rw [declared_append] at hd
    rw [written_append, after_append, List.append_assoc]
    refine .step (by simp) (hm hd.1) ?_
    rw [h1]
    simpa using hms hd.2
  | .nulls (n := k) (f := f) (b := b) (vs := vs) (ns := ns) hf h hs => by
    obtain ⟨slots, hms, hls⟩ := elems_ok hT hs
    refine ⟨.nulls k :: slots, ?_, laterAll_nulls hls⟩
    intro L i hd
    rw [declared_append] at hd
    have h1 := libraries_one hf hd.1 (starts_nulls h (written ns ++ i))
    rw [after_append]
    have e : written (f ++ .bytes b :: ns) ++ i = written f ++ (b ++ (written ns ++ i)) := by
      simp [written, Token.write]
    rw [e]
    have hk : 0 < k := by rcases h with ⟨rfl, _⟩ | ⟨h, _⟩ | ⟨h, _⟩ <;> omega
    refine .step (by simp; omega) (slot := .nulls k) (E1 := env (after L f)) (i1 := written ns ++ i) ?_ ?_
    · rcases hT with rfl | rfl
      · exact .nulls h1 h
      · exact .stringArrayNulls h1 h
    · have := hms (i := i) hd.2
      simpa [Slot.size, after] using this

theorem obj_ok {id : Nat} {v : Value} {ts : List Token} : Obj id v ts →
    ∃ name lib ms, v = .object name lib ms ∧ (∀ i, Starts (written ts ++ i)) ∧
      ∀ {L : Nat → Option Str} {i : Bytes} {E : Env} {i0 : Bytes}, Declared L ts → OptLib E i0 (env L) (written ts ++ i) →
        Class E i0 id name lib ms (env (after L ts)) i
  | .system (h := c) (b := b) (vs := vs) (n := n) (l := l) hc hl hn he => by
    obtain ⟨slots, hms, hls⟩ := each_ok he
    have ew : ∀ i, written (.bytes b :: (n ++ l)) ++ i = b ++ (written n ++ (written l ++ i)) := by
      intro i; simp [written, Token.write]
    refine ⟨_, _, _, rfl, (fun i => by rw [ew]; exact starts_class hc _), ?_⟩
    intro L i E i0 hd ho
    rw [ew] at ho
    have hd : Declared L (n ++ l) := hd
    rw [declared_append] at hd
    have := Class.mk ho hc (library := none) (by unfold ClassHead.HasLibrary; rw [hl]) (hms hd.1) (laterAll_resolve hls hd.2 i)
    have el : c.memberNames.length = vs.length := by rw [← memberTypes_length hc, each_length he]
    rw [bindNames_nodup hn] at this
    show Class E i0 _ _ _ _ (env (after L (n ++ l))) i
    rw [after_append]
    exact this
  | .library (h := c) (b := b) (k := k) (library := library) (vs := vs) (n := n) (l := l) hc hl hn he => by
    obtain ⟨slots, hms, hls⟩ := each_ok he
    have ew : ∀ i, written (.bytes b :: .needs k library :: (n ++ l)) ++ i = b ++ (written n ++ (written l ++ i)) := by
      intro i; simp [written, Token.write]
    refine ⟨_, _, _, rfl, (fun i => by rw [ew]; exact starts_class hc _), ?_⟩
    intro L i E i0 hd ho
    rw [ew] at ho
    have hd : L k = some library ∧ Declared L (n ++ l) := hd
    rw [declared_append] at hd
    have := Class.mk ho hc (library := some library) (by unfold ClassHead.HasLibrary; rw [hl]; exact ⟨_, hd.1, rfl⟩)
      (hms hd.2.1) (laterAll_resolve hls hd.2.2 i)
    rw [bindNames_nodup hn] at this
    show Class E i0 _ _ _ _ (env (after L (n ++ l))) i
    rw [after_append]
    exact this

theorem rec_ok {id : Nat} {v : Value} {ts : List Token} : RecordOf id v ts →
    ∀ (L : Nat → Option Str) (i : Bytes), Declared L ts → Record (env L) (written ts ++ i) id v (env (after L ts)) i
  | .object hf h => by
    obtain ⟨name, lib, ms, rfl, hb, hc⟩ := obj_ok h
    intro L i hd
    rw [declared_append] at hd
    rw [written_append, after_append, List.append_assoc]
    exact .object (hc hd.2 (libraries_one hf hd.1 (hb i)))
  | .string h => by
    intro L i _
    have := Record.string (E := env L) (i' := i) h
    simpa [written, Token.write, after] using this
  | .primitiveArray h hs => by
    intro L i _
    have := Record.primitiveArray (E := env L) (i' := i) h hs
    simpa [written, Token.write, after] using this
  | .objectArray (n := n) (l := l) h hs => by
    obtain ⟨slots, hms, hls⟩ := elems_ok (.inl rfl) hs
    intro L i hd
    have hd : Declared L (n ++ l) := hd
    rw [declared_append] at hd
    have := Record.objectArray (E := env L) h (hms hd.1) (laterAll_resolve hls hd.2 i)
    show Record _ _ _ _ (env (after L (n ++ l))) i
    rw [after_append]
    simpa [written, Token.write] using this
  | .stringArray (n := n) (l := l) h hs => by
    obtain ⟨slots, hms, hls⟩ := elems_ok (.inr rfl) hs
    intro L i hd
    have hd : Declared L (n ++ l) := hd
    rw [declared_append] at hd
    have := Record.stringArray (E := env L) h (hms hd.1) (laterAll_resolve hls hd.2 i)
    show Record _ _ _ _ (env (after L (n ++ l))) i
    rw [after_append]
    simpa [written, Token.write] using this
  | .array (lengths := lengths) (v := v) (vs := vs) (n := n) (l := l) h h0 hp hsh he hs => by
    obtain ⟨slots, hms, hls⟩ := each_ok hs
    intro L i hd
    have hd : Declared L (n ++ l) := hd
    rw [declared_append] at hd
    cases hsh with
    | leaf => exact absurd rfl h0
    | @array d ds rows _ hd' hall =>
      have hrows : Rows ds vs rows := by
        unfold Rows
        split
        · rename_i h; have := he h; cases this; rfl
        · exact hall
      have := Record.array (E := env L) h hp (hms hd.1) (laterAll_resolve hls hd.2 i) hrows
      show Record _ _ _ _ (env (after L (n ++ l))) i
      rw [after_append]
      simpa [written, Token.write] using this
end

end

end Nrbf.Spec
