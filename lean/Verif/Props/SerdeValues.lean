import Verif.Props.Serde
import Verif.Props.Safety

/-! # C41 - C43, C51, C52, C54: values as Rust types -/

set_option autoImplicit false

namespace Nrbf

open Spec (InSigned)

variable [Platform] [FloatLib]

/-! ## C42: null and options -/

/-- **C42** A null member or element is `None`. -/
theorem C42_none (T : Ty) : decode .null (.option T) = .ok .none := by
  show (valueDeser .null).run (.option T) = _
  rw [valueDeser]; rfl

theorem valueDeser_option (v : Value) (h : v ≠ .null) : (valueDeser v).option = .visitSome := by
  cases v <;> first | exact absurd rfl h | (rw [valueDeser]; rfl)

/-- **C42** Any other member or element is `Some` of what it is as a `T`; if it is no `T` it is an error
and not `None`. -/
theorem C42_some (v : Value) (T : Ty) (h : v ≠ .null) : decode v (.option T) = (decode v T).map .some := by
  show (valueDeser v).run (.option T) = ((valueDeser v).run T).map .some
  rw [Deser.run.eq_def]
  simp only [valueDeser_option v h]

/-- The same as an equivalence: the result is `None` for null only. -/
theorem C42 (v : Value) (T : Ty) (d : Dyn) :
    decode v (.option T) = .ok d ↔ (v = .null ∧ d = .none) ∨ (v ≠ .null ∧ ∃ x, d = .some x ∧ decode v T = .ok x) := by
  by_cases h : v = .null
  · subst h
    rw [C42_none]
    simp only [Except.ok.injEq, true_and, ne_eq, not_true_eq_false, false_and, or_false]
    exact eq_comm
  · rw [C42_some v T h, map_ok_iff]
    simp only [h, false_and, ne_eq, not_false_eq_true, true_and, false_or]
    constructor
    · rintro ⟨a, h1, rfl⟩; exact ⟨a, rfl, h1⟩
    · rintro ⟨a, rfl, h1⟩; exact ⟨a, h1, rfl⟩

/-! ## C43: whole messages -/

theorem run_plain (d : Deser Child) (T : Ty) (h : ∀ T', T ≠ .option T') (h' : ∀ fs, T ≠ .struct fs) :
    d.run T = accept T d.any := by
  cases T <;> first | exact absurd rfl (h _) | exact absurd rfl (h' _) | rfl

/-- **C43** A message that does not parse is reported as the parse error, whatever the type. -/
theorem C43_malformed (T : Ty) (bytes : Bytes) (e : Error) (h : deserialize bytes = .err e) :
    fromSlice T bytes = .err (.parsing e) := by
  unfold fromSlice; rw [h]

theorem accept_fail (T : Ty) (e : DeError) : accept T (.fail e) = .error e := by
  cases T <;> rfl

/-- **C43** A method call is an error, whatever the type. -/
theorem C43_call (T : Ty) (bytes : Bytes) (c : MethodCall) (h : deserialize bytes = .ok (.methodCall c)) :
    fromSlice T bytes = .err .methodCall := by
  unfold fromSlice; rw [h]
  cases T <;> rfl

/-- **C43** A method return is an error, whatever the type. -/
theorem C43_return (T : Ty) (bytes : Bytes) (r : MethodReturn) (h : deserialize bytes = .ok (.methodReturn r)) :
    fromSlice T bytes = .err .methodReturn := by
  unfold fromSlice; rw [h]
  cases T <;> rfl

/-- What a decoding result is as the result of `from_slice`. -/
def SliceResult.of : DeResult Dyn → SliceResult
  | .ok d => .ok d
  | .error .hang => .hang
  | .error e => .err e

/-- **C43** A message with a value is decoded like that value, whatever the type, unless it is an option
(see `C42_root`). -/
theorem C43_value (T : Ty) (bytes : Bytes) (v : Value) (h : deserialize bytes = .ok (.value v))
    (hT : ∀ T', T ≠ .option T') : fromSlice T bytes = .of (decode v T) := by
  unfold fromSlice; rw [h]
  have : (messageDeser (.value v)).run T = decode v T := by
    show _ = (valueDeser v).run T
    cases T <;> first | exact absurd rfl (hT _) | rfl
  simp only [this]
  cases decode v T with
  | ok d => rfl
  | error e => cases e <;> rfl

/-! ## What the deserializers call -/

/-- No `visit_unit`, `visit_none` or `visit_some`. -/
def VCall.Definite {ρ : Type} : VCall ρ → Prop
  | .visitUnit | .visitNone | .visitSome => False
  | _ => True

theorem unboxed_definite (T : Ty) (visit : Dyn → VCall Child) (es : List (Str × Child))
    (h : ∀ d, (visit d).Definite) : (unboxed T visit es).Definite := by
  unfold unboxed
  split
  · exact h _
  · trivial

theorem visitInt_definite (d : Dyn) : (visitInt d).Definite := by cases d <;> trivial
theorem visitBool_definite (d : Dyn) : (visitBool d).Definite := by cases d <;> trivial
theorem visitChar_definite (d : Dyn) : (visitChar d).Definite := by cases d <;> trivial
theorem visitF32_definite (d : Dyn) : (visitF32 d).Definite := by cases d <;> trivial
theorem visitF64_definite (d : Dyn) : (visitF64 d).Definite := by cases d <;> trivial

/-- The classes of boxed primitives, the type their member is read as and the visitor method. -/
def boxTable : List (Str × Ty × (Dyn → VCall Child)) :=
  [(lit "System.Boolean", .bool, visitBool), (lit "System.Byte", .u8, visitInt), (lit "System.SByte", .i8, visitInt),
   (lit "System.Char", .char, visitChar), (lit "System.Double", .f64, visitF64), (lit "System.Single", .f32, visitF32),
   (lit "System.Int32", .i32, visitInt), (lit "System.UInt32", .u32, visitInt), (lit "System.Int64", .i64, visitInt),
   (lit "System.UInt64", .u64, visitInt), (lit "System.Int16", .i16, visitInt), (lit "System.UInt16", .u16, visitInt)]

theorem ite_ind {α : Type} {c : Prop} [Decidable c] {a b : α} (P : α → Prop) (ha : c → P a) (hb : ¬c → P b) :
    P (if c then a else b) := by
  split
  · exact ha ‹_›
  · exact hb ‹_›

/-- The three things `deserialize_any` does with an object. -/
theorem objectAny_cases (motive : VCall Child → Prop) (cls : Str) (lib : Option Str) (ms : List (Str × Node))
    (hmap : motive (.visitMap (ms.map fun m => (m.1, m.2.deser))))
    (hbox : ∀ name P visit, (name, P, visit) ∈ boxTable → lib = none → classBase cls = name →
      motive (unboxed P visit (ms.map fun m => (m.1, m.2.deser))))
    (hlist : lib = none → classBase cls = lit "System.Collections.Generic.List" →
      motive (match listMembers ms with
      | some (items, size) => .visitList items (asUsize size)
      | none => .fail .serde)) : motive (objectAny cls lib ms) := by
  unfold objectAny
  refine ite_ind motive (fun _ => hmap) fun hlib => ?_
  have hlib : lib = none := by cases lib <;> simp_all
  refine ite_ind motive (fun h => hbox _ _ _ (by simp [boxTable]) hlib h) fun _ => ?_
  refine ite_ind motive (fun h => hbox _ _ _ (by simp [boxTable]) hlib h) fun _ => ?_
  refine ite_ind motive (fun h => hbox _ _ _ (by simp [boxTable]) hlib h) fun _ => ?_
  refine ite_ind motive (fun h => hbox _ _ _ (by simp [boxTable]) hlib h) fun _ => ?_
  refine ite_ind motive (fun h => hbox _ _ _ (by simp [boxTable]) hlib h) fun _ => ?_
  refine ite_ind motive (fun h => hbox _ _ _ (by simp [boxTable]) hlib h) fun _ => ?_
  refine ite_ind motive (fun h => hbox _ _ _ (by simp [boxTable]) hlib h) fun _ => ?_
  refine ite_ind motive (fun h => hbox _ _ _ (by simp [boxTable]) hlib h) fun _ => ?_
  refine ite_ind motive (fun h => hbox _ _ _ (by simp [boxTable]) hlib h) fun _ => ?_
  refine ite_ind motive (fun h => hbox _ _ _ (by simp [boxTable]) hlib h) fun _ => ?_
  refine ite_ind motive (fun h => hbox _ _ _ (by simp [boxTable]) hlib h) fun _ => ?_
  refine ite_ind motive (fun h => hbox _ _ _ (by simp [boxTable]) hlib h) fun _ => ?_
  exact ite_ind motive (fun h => hlist hlib h) fun _ => hmap

/-- Which visitor method a boxed primitive ends up at. -/
theorem boxTable_visit {name : Str} {P : Ty} {visit : Dyn → VCall Child} (h : (name, P, visit) ∈ boxTable) :
    (P = .bool ∧ visit = visitBool) ∨ ((∃ a b, P = .int a b) ∧ visit = visitInt) ∨ (P = .char ∧ visit = visitChar) ∨
      (P = .f64 ∧ visit = visitF64) ∨ (P = .f32 ∧ visit = visitF32) := by
  simp only [boxTable, List.mem_cons, Prod.mk.injEq, List.not_mem_nil, or_false] at h
  rcases h with ⟨_, rfl, rfl⟩ | ⟨_, rfl, rfl⟩ | ⟨_, rfl, rfl⟩ | ⟨_, rfl, rfl⟩ | ⟨_, rfl, rfl⟩ | ⟨_, rfl, rfl⟩ |
    ⟨_, rfl, rfl⟩ | ⟨_, rfl, rfl⟩ | ⟨_, rfl, rfl⟩ | ⟨_, rfl, rfl⟩ | ⟨_, rfl, rfl⟩ | ⟨_, rfl, rfl⟩
  all_goals first
    | exact .inl ⟨rfl, rfl⟩
    | exact .inr (.inl ⟨⟨_, _, rfl⟩, rfl⟩)
    | exact .inr (.inr (.inl ⟨rfl, rfl⟩))
    | exact .inr (.inr (.inr (.inl ⟨rfl, rfl⟩)))
    | exact .inr (.inr (.inr (.inr ⟨rfl, rfl⟩)))

theorem objectAny_definite (cls : Str) (lib : Option Str) (ms : List (Str × Node)) :
    (objectAny cls lib ms).Definite := by
  refine objectAny_cases _ cls lib ms trivial ?_ ?_
  · intro name P visit h _ _
    refine unboxed_definite _ _ _ ?_
    rcases boxTable_visit h with ⟨_, rfl⟩ | ⟨_, rfl⟩ | ⟨_, rfl⟩ | ⟨_, rfl⟩ | ⟨_, rfl⟩
    · exact visitBool_definite
    · exact visitInt_definite
    · exact visitChar_definite
    · exact visitF64_definite
    · exact visitF32_definite
  · intro _ _
    cases listMembers ms with
    | none => trivial
    | some p => trivial

theorem valueDeser_definite (v : Value) (h : v ≠ .null) : (valueDeser v).any.Definite := by
  cases v <;> first
    | exact absurd rfl h
    | (rw [valueDeser]; trivial)
    | (rw [valueDeser]; exact objectAny_definite _ _ _)

/-- **C42** (whole messages) At the top level, `Option<T>` works for null only: on every message with any
other value, `from_slice::<Option<T>>` is an error - even if the value is a `T`. -/
theorem C42_root (T : Ty) (bytes : Bytes) (v : Value) (h : deserialize bytes = .ok (.value v)) :
    (v = .null → fromSlice (.option T) bytes = .ok .none) ∧
      (v ≠ .null → fromSlice (.option T) bytes ≠ .ok .none ∧ ∀ d, fromSlice (.option T) bytes ≠ .ok d) := by
  unfold fromSlice; rw [h]
  constructor
  · rintro rfl
    simp only [messageDeser]
    rw [valueDeser]; rfl
  · intro hv
    have hd := valueDeser_definite v hv
    have : ∀ d, (messageDeser (.value v)).run (.option T) ≠ .ok d := by
      intro d
      show (match (valueDeser v).any with
        | .fail e => .error e
        | .visitUnit | .visitNone => .ok .none
        | .visitSome => ((messageDeser (.value v)).run T).map .some
        | _ => .error .serde : DeResult Dyn) ≠ .ok d
      cases hc : (valueDeser v).any <;> rw [hc] at hd <;> first | exact hd.elim | simp
    have h2 : ∀ d, (match (messageDeser (.value v)).run (.option T) with
        | .ok d => SliceResult.ok d
        | .error .hang => .hang
        | .error e => .err e) ≠ .ok d := by
      intro d
      cases hr : (messageDeser (.value v)).run (.option T) with
      | ok x => exact absurd hr (this x)
      | error e => cases e <;> simp
    exact ⟨h2 _, h2⟩

/-! ## C41: boxed primitives -/

/-- A type that is not a struct with named fields, and not an option of one. -/
def NoStruct : Ty → Prop
  | .struct _ => False
  | .option T => NoStruct T
  | _ => True

theorem accept_int {lo hi n : Int} (h : lo ≤ n ∧ n ≤ hi) : accept (.int lo hi) (.visitInt n) = .ok (.int n) := by
  show (if lo ≤ n ∧ n ≤ hi then _ else _) = _
  rw [if_pos h]

theorem decode_plain {v : Value} {c : VCall Child} (hv : valueDeser v = plainDeser c) {T : Ty}
    (h : ∀ T', T ≠ .option T') : decode v T = accept T c := by
  show (valueDeser v).run T = _
  rw [hv]
  cases T <;> first | exact absurd rfl (h _) | rfl

/-- A primitive is a value of its own type. -/
theorem BoxedPrim.bare {name : Str} {P : Ty} {x : Dyn} {v : Value} (h : BoxedPrim name P x v) : decode v P = .ok x := by
  cases h <;> (rw [decode_plain (by rw [valueDeser]) (by simp [Ty.i8, Ty.i16, Ty.i32, Ty.i64, Ty.u8, Ty.u16, Ty.u32, Ty.u64])])
  all_goals first
    | rfl
    | (refine accept_int ?_; rename_i h; unfold InSigned at h; omega)
    | (refine accept_int ?_; omega)

/-- An object of the class of a boxed primitive. -/
theorem objectAny_box {cls name : Str} {P : Ty} {visit : Dyn → VCall Child} (h : (name, P, visit) ∈ boxTable)
    (hb : classBase cls = name) (ms : List (Str × Value)) :
    objectAny cls none (memberNodes ms) = unboxed P visit (entriesOf ms) := by
  rw [← entries_memberNodes]
  unfold objectAny
  simp only [hb]
  simp only [boxTable, List.mem_cons, Prod.mk.injEq, List.not_mem_nil, or_false] at h
  rcases h with ⟨rfl, rfl, rfl⟩ | ⟨rfl, rfl, rfl⟩ | ⟨rfl, rfl, rfl⟩ | ⟨rfl, rfl, rfl⟩ | ⟨rfl, rfl, rfl⟩ |
    ⟨rfl, rfl, rfl⟩ | ⟨rfl, rfl, rfl⟩ | ⟨rfl, rfl, rfl⟩ | ⟨rfl, rfl, rfl⟩ | ⟨rfl, rfl, rfl⟩ | ⟨rfl, rfl, rfl⟩ |
    ⟨rfl, rfl, rfl⟩
  all_goals rfl

theorem BoxedPrim.table {name : Str} {P : Ty} {x : Dyn} {v : Value} (h : BoxedPrim name P x v) :
    ∃ visit, (name, P, visit) ∈ boxTable ∧ (valueDeser v).any = visit x := by
  cases h <;> first
    | exact ⟨visitBool, by simp [boxTable], by rw [valueDeser]; rfl⟩
    | exact ⟨visitInt, by simp [boxTable], by rw [valueDeser]; rfl⟩
    | exact ⟨visitChar, by simp [boxTable], by rw [valueDeser]; rfl⟩
    | exact ⟨visitF64, by simp [boxTable], by rw [valueDeser]; rfl⟩
    | exact ⟨visitF32, by simp [boxTable], by rw [valueDeser]; rfl⟩

theorem objectAny_prim {cls name : Str} {P : Ty} {x : Dyn} {v w : Value} (h : BoxedPrim name P x v)
    (hc : cls.takeWhile (· ≠ 96) = name) (hw : decode w P = .ok x) :
    (objectAny cls none (memberNodes [(lit "m_value", w)])) = (valueDeser v).any := by
  obtain ⟨visit, ht, hv⟩ := h.table
  rw [objectAny_box ht hc, hv]
  show (match unbox P [(lit "m_value", decode w)] with | .ok d => visit d | .error e => .fail e) = _
  simp [unbox, hw]

theorem BoxedPrim.not_null {name : Str} {P : Ty} {x : Dyn} {v : Value} (h : BoxedPrim name P x v) : v ≠ .null := by
  cases h <;> simp

/-- **C41** A boxed primitive - an object of the class of a primitive, without library, whose only member
`m_value` holds a value that is a `P` - decodes into every type exactly like the primitive, except into
structs with named fields, which see the member `m_value`. -/
theorem C41 (cls name : Str) (P : Ty) (x : Dyn) (v w : Value) (h : BoxedPrim name P x v)
    (hc : cls.takeWhile (· ≠ 96) = name) (hw : decode w P = .ok x) (T : Ty) (hT : NoStruct T) :
    decode (.object cls none [(lit "m_value", w)]) T = decode v T := by
  induction T using NoStruct.induct with
  | case1 fs => exact hT.elim
  | case2 T ih => rw [C42_some _ _ (by simp), C42_some _ _ h.not_null, ih hT]
  | case3 T h1 h2 =>
    have h1 : ∀ fs, T ≠ .struct fs := fun fs h => h1 fs h
    have h2 : ∀ T', T ≠ .option T' := fun T' h => h2 T' h
    rw [decode_object _ _ _ _ h2 h1, objectAny_prim h hc hw]
    show _ = (valueDeser v).run T
    rw [run_plain _ _ h2 h1]

/-- **C41** In particular if the member is the primitive itself. -/
theorem C41_boxed (name : Str) (P : Ty) (x : Dyn) (v : Value) (h : BoxedPrim name P x v) (T : Ty) (hT : NoStruct T)
    (hn : name.takeWhile (· ≠ 96) = name) :
    decode (.object name none [(lit "m_value", v)]) T = decode v T :=
  C41 name name P x v v h hn h.bare T hT

/-- The hypotheses of `C41_boxed` are met for every primitive. -/
theorem BoxedPrim.plain {name : Str} {P : Ty} {x : Dyn} {v : Value} (h : BoxedPrim name P x v) :
    name.takeWhile (· ≠ 96) = name := by
  cases h <;> kernel_decide

/-- **C41** With any other member set - none, several, or a differently named one - a boxed primitive
decodes into structs with named fields only: everything else is an error. -/
theorem C41_malformed (cls name : Str) (P : Ty) (x : Dyn) (v : Value) (h : BoxedPrim name P x v)
    (hc : cls.takeWhile (· ≠ 96) = name) (ms : List (Str × Value)) (hm : ∀ w, ms ≠ [(lit "m_value", w)]) (T : Ty)
    (hT : NoStruct T) : ∃ e, decode (.object cls none ms) T = .error e := by
  induction T using NoStruct.induct with
  | case1 fs => exact hT.elim
  | case2 T ih =>
    obtain ⟨e, he⟩ := ih hT
    exact ⟨e, by rw [C42_some _ _ (by simp), he]; rfl⟩
  | case3 T h1 h2 =>
    have h1 : ∀ fs, T ≠ .struct fs := fun fs h => h1 fs h
    have h2 : ∀ T', T ≠ .option T' := fun T' h => h2 T' h
    obtain ⟨visit, ht, _⟩ := h.table
    rw [decode_object _ _ _ _ h2 h1, objectAny_box ht hc]
    have hu : ∃ e, unbox P (entriesOf ms) = .error e := by
      match ms with
      | [] => exact ⟨_, rfl⟩
      | [(k, w)] =>
        have hk : k ≠ lit "m_value" := fun hk => hm w (by rw [hk])
        show ∃ e, unbox P [(k, decode w)] = .error e
        simp only [unbox, List.length_singleton, if_true, if_neg hk]
        cases decode w P <;> exact ⟨_, rfl⟩
      | m1 :: m2 :: ms => exact ⟨_, rfl⟩
    obtain ⟨e, he⟩ := hu
    refine ⟨e, ?_⟩
    unfold unboxed
    rw [he]
    exact accept_fail T e

/-- A boxed -1 as an `i64`, and one with a second member. -/
example : decode (.object (lit "System.Int32") none [(lit "m_value", .int32 (-1))]) .i64 = .ok (.int (-1)) := by
  kernel_decide
example : decode (.object (lit "System.Int32") none [(lit "m_value", .int32 (-1)), (lit "x", .null)]) .i64 =
    .error .serde := by
  kernel_decide
example : decode (.object (lit "System.Int32") none [(lit "m_value", .int32 (-1))])
    (.struct [(lit "m_value", .i8)]) = .ok (.struct [(lit "m_value", .int (-1))]) := by
  kernel_decide

/-! ## C51: decoding ends -/

/-- Decoding with this child never runs out of fuel. -/
def Ends (c : Child) : Prop := ∀ T, c T ≠ .error .hang

theorem readAll_ends {T : Ty} {cs : List Child} (h : ∀ c ∈ cs, Ends c) {fuel : Nat} (hf : cs.length < fuel) :
    readAll arrayNext T fuel cs ≠ .error .hang := by
  induction cs generalizing fuel with
  | nil => cases fuel with | zero => simp at hf | succ fuel => simp [readAll, arrayNext]
  | cons c cs ih =>
    cases fuel with
    | zero => simp at hf
    | succ fuel =>
      have hc := h c (by simp) T
      have := ih (fun c hc => h c (by simp [hc])) (fuel := fuel) (by simp at hf; omega)
      simp only [readAll, arrayNext]
      cases hcT : c T with
      | error e => rw [hcT] at hc; simpa using hc
      | ok d =>
        simp only
        split
        · simp
        · rename_i e he; rw [he] at this; exact this

theorem readAllList_ends {T : Ty} {cs : List Child} (h : ∀ c ∈ cs, Ends c) {fuel : Nat} (hf : cs.length < fuel)
    (k n : Nat) : readAll listNext T fuel ⟨cs, k, n⟩ ≠ .error .hang := by
  induction cs generalizing fuel k with
  | nil =>
    cases fuel with
    | zero => simp at hf
    | succ fuel => by_cases hk : k < n <;> simp [readAll, listNext, arrayNext, hk]
  | cons c cs ih =>
    cases fuel with
    | zero => simp at hf
    | succ fuel =>
      by_cases hk : k < n
      · have hc := h c (by simp) T
        have := ih (fun c hc => h c (by simp [hc])) (fuel := fuel) (by simp at hf; omega) (k + 1)
        simp only [readAll, listNext, arrayNext, if_pos hk]
        cases hcT : c T with
        | error e => rw [hcT] at hc; simpa using hc
        | ok d =>
          simp only
          split
          · simp
          · rename_i e he; rw [he] at this; exact this
      · simp [readAll, listNext, hk]

theorem readEach_ends {Ts : List Ty} {cs : List Child} (h : ∀ c ∈ cs, Ends c) :
    readEach arrayNext Ts cs ≠ .error .hang := by
  induction Ts generalizing cs with
  | nil => simp [readEach]
  | cons T Ts ih =>
    cases cs with
    | nil => simp [readEach, arrayNext]
    | cons c cs =>
      have hc := h c (by simp) T
      have := ih (cs := cs) (fun c hc => h c (by simp [hc]))
      simp only [readEach, arrayNext]
      cases hcT : c T with
      | error e => rw [hcT] at hc; simpa using hc
      | ok d =>
        simp only
        split
        · simp
        · rename_i e he; rw [he] at this; exact this

theorem readEachList_ends {Ts : List Ty} {cs : List Child} (h : ∀ c ∈ cs, Ends c) (k n : Nat) :
    readEach listNext Ts ⟨cs, k, n⟩ ≠ .error .hang := by
  induction Ts generalizing cs k with
  | nil => simp [readEach]
  | cons T Ts ih =>
    by_cases hk : k < n
    · cases cs with
      | nil => simp [readEach, listNext, hk, arrayNext]
      | cons c cs =>
        have hc := h c (by simp) T
        have := ih (cs := cs) (fun c hc => h c (by simp [hc])) (k + 1)
        simp only [readEach, listNext, arrayNext, if_pos hk]
        cases hcT : c T with
        | error e => rw [hcT] at hc; simpa using hc
        | ok d =>
          simp only
          split
          · simp
          · rename_i e he; rw [he] at this; exact this
    · simp [readEach, listNext, hk]

theorem visitArray_ends (plan : SeqPlan) {cs : List Child} (h : ∀ c ∈ cs, Ends c) :
    visitArraySeq plan cs ≠ .error .hang := by
  have : plan.run arrayNext (cs.length + 1) cs ≠ .error .hang := by
    cases plan with
    | all T => exact readAll_ends h (by omega)
    | each Ts => exact readEach_ends h
  unfold visitArraySeq
  split
  · unfold arrayEnd
    by_cases hl : (‹List Child› : List Child).length = 0 <;> simp [hl]
  · rename_i e he; rw [he] at this; simpa using this

theorem visitList_ends (plan : SeqPlan) {cs : List Child} (h : ∀ c ∈ cs, Ends c) (n : Nat) :
    visitListSeq plan cs n ≠ .error .hang := by
  have : plan.run listNext (cs.length + 1) ⟨cs, 0, n⟩ ≠ .error .hang := by
    cases plan with
    | all T => exact readAllList_ends h (by omega) _ _
    | each Ts => exact readEachList_ends h _ _
  unfold visitListSeq
  split
  · unfold listEnd
    split
    · simp
    · rename_i he
      split at he
      · cases he
      · cases he; simp
  · rename_i e he; rw [he] at this; simpa using this

theorem readMap_ends {T : Ty} {es : List (Str × Child)} (h : ∀ e ∈ es, Ends e.2) : readMap T es ≠ .error .hang := by
  induction es with
  | nil => simp [readMap]
  | cons e es ih =>
    obtain ⟨k, c⟩ := e
    have hc := h (k, c) (by simp) T
    have := ih fun e he => h e (by simp [he])
    simp only [readMap]
    cases hcT : c T with
    | error e => rw [show (k, c).2 T = c T from rfl, hcT] at hc; simpa using hc
    | ok d =>
      simp only
      split
      · simp
      · rename_i e he; rw [he] at this; exact this

theorem readFields_ends {fs : List (Str × Ty)} {es : List (Str × Child)} (h : ∀ e ∈ es, Ends e.2)
    (acc : List (Str × Dyn)) : readFields fs es acc ≠ .error .hang := by
  induction es generalizing acc with
  | nil => simp [readFields]
  | cons e es ih =>
    obtain ⟨k, c⟩ := e
    have hc := h (k, c) (by simp)
    have := ih fun e he => h e (by simp [he])
    simp only [readFields]
    split
    · rename_i T _
      split
      · simp
      · have hc := hc T
        cases hcT : c T with
        | error e => rw [show (k, c).2 T = c T from rfl, hcT] at hc; simpa using hc
        | ok d => exact this _
    · have hc := hc .ignored
      cases hcT : c .ignored with
      | error e => rw [show (k, c).2 .ignored = c .ignored from rfl, hcT] at hc; simpa using hc
      | ok d => exact this _

theorem finishFields_ends (found : List (Str × Dyn)) (fs : List (Str × Ty)) :
    finishFields found fs ≠ .error .hang := by
  induction fs with
  | nil => simp [finishFields]
  | cons f fs ih =>
    obtain ⟨k, T⟩ := f
    simp only [finishFields]
    split
    · split
      · simp
      · rename_i e he; rw [he] at ih; simpa using ih
    · split
      · split
        · simp
        · rename_i e he; rw [he] at ih; simpa using ih
      · simp

theorem visitFields_ends {fs : List (Str × Ty)} {es : List (Str × Child)} (h : ∀ e ∈ es, Ends e.2) :
    visitFields fs es ≠ .error .hang := by
  unfold visitFields
  split
  · exact finishFields_ends _ _
  · rename_i e he; have := readFields_ends (fs := fs) h []; rw [he] at this; simpa using this

/-- The children of a call end, and it is not a failure by lack of fuel. -/
def VCall.Ends : VCall Child → Prop
  | .visitArray cs => ∀ c ∈ cs, Nrbf.Ends c
  | .visitList cs _ => ∀ c ∈ cs, Nrbf.Ends c
  | .visitMap es => ∀ e ∈ es, Nrbf.Ends e.2
  | .fail e => e ≠ .hang
  | _ => True

theorem map_ne_hang {α β : Type} {x : DeResult α} {f : α → β} (h : x ≠ .error .hang) : x.map f ≠ .error .hang := by
  cases x with
  | ok a => simp [Except.map]
  | error e => simpa [Except.map] using h

theorem charOfStr_ends (s : Str) : charOfStr s ≠ .error .hang := by
  unfold charOfStr; split <;> simp

theorem accept_ends {T : Ty} {c : VCall Child} (h : c.Ends) : accept T c ≠ .error .hang := by
  cases c
  case fail e => rw [accept_fail]; simpa [VCall.Ends] using h
  case visitArray cs =>
    cases T <;> first | exact map_ne_hang (visitArray_ends _ h) | simp [accept]
  case visitList cs n =>
    cases T <;> first | exact map_ne_hang (visitList_ends _ h n) | simp [accept]
  case visitMap es =>
    cases T <;> first | exact map_ne_hang (readMap_ends h) | exact map_ne_hang (visitFields_ends h) | simp [accept]
  case visitInt n =>
    cases T <;> simp only [accept] <;> first | (split <;> simp; done) | simp
  case visitString s =>
    cases T <;> first | exact charOfStr_ends s | simp [accept]
  case visitBorrowedStr s =>
    cases T <;> first | exact charOfStr_ends s | simp [accept]
  all_goals cases T <;> simp [accept]

theorem unboxed_ends {P : Ty} {visit : Dyn → VCall Child} {es : List (Str × Child)} (h : ∀ e ∈ es, Ends e.2)
    (hv : ∀ d, (visit d).Ends) : (unboxed P visit es).Ends := by
  unfold unboxed
  split
  · exact hv _
  · rename_i e he
    show e ≠ .hang
    rintro rfl
    unfold unbox at he
    split at he
    · split at he
      · rename_i k c _
        have := h (k, c) (by simp) P
        split at he
        · split at he <;> simp at he
        · rename_i hc; simp only [Except.error.injEq] at he; subst he; exact this hc
      · simp at he
    · simp at he

theorem run_ends {d : Deser Child} (h1 : d.any.Ends) (h2 : d.option.Ends) (h3 : d.struct.Ends) : Ends d.run := by
  intro T
  induction T using NoStruct.induct with
  | case1 fs => exact accept_ends h3
  | case2 T ih =>
    show (match d.option with
        | .fail e => .error e
        | .visitUnit | .visitNone => .ok .none
        | .visitSome => (d.run T).map .some
        | _ => .error .serde : DeResult Dyn) ≠ _
    split
    · rename_i e he; rw [he] at h2; simpa [VCall.Ends] using h2
    · simp
    · simp
    · exact map_ne_hang ih
    · simp
  | case3 T h4 h5 => rw [run_plain _ _ (fun T' h => h5 T' h) (fun fs h => h4 fs h)]; exact accept_ends h1

theorem plain_ends {c : VCall Child} (h : c.Ends) : Ends (plainDeser c).run := run_ends h trivial h

theorem get?_memberNodes_some {ms : List (Str × Value)} {k : Str} {n : Node}
    (h : AMap.get? (memberNodes ms) k = some n) : (k, n.value) ∈ ms ∧ n.deser = decode n.value ∧ n.items = itemsOf n.value := by
  have := AMap.mem_of_get? h
  rw [memberNodes_eq] at this
  obtain ⟨⟨k', v⟩, hm, he⟩ := List.mem_map.mp this
  cases he
  exact ⟨hm, rfl, rfl⟩

/-- What a list object is, when it is recognised. -/
theorem listMembers_some {ms : List (Str × Value)} {items : List Child} {size : Int}
    (h : listMembers (memberNodes ms) = some (items, size)) :
    ms.length = 3 ∧ ∃ vs version, items = itemsOf (.array vs) ∧ (lit "_items", Value.array vs) ∈ ms ∧
      (lit "_size", Value.int32 size) ∈ ms ∧ (lit "_version", Value.int32 version) ∈ ms := by
  unfold listMembers at h
  split at h
  · rename_i hl
    rw [memberNodes_eq, List.length_map] at hl
    split at h
    · rename_i vs d its sz d2 i2 ver d3 i3 h1 h2 h3
      simp only [Option.some.injEq, Prod.mk.injEq] at h
      obtain ⟨rfl, rfl⟩ := h
      have := get?_memberNodes_some h1
      exact ⟨hl, vs, ver, this.2.2, this.1, (get?_memberNodes_some h2).1, (get?_memberNodes_some h3).1⟩
    · cases h
  · cases h

mutual
theorem decode_ends : ∀ v : Value, Ends (decode v)
  | .array vs => by
    show Ends (valueDeser (.array vs)).run
    rw [valueDeser, itemDesers_eq]
    refine plain_ends ?_
    intro c hc
    obtain ⟨v, hv, rfl⟩ := List.mem_map.mp hc
    exact decodeL_ends vs v hv
  | .object cls lib ms => by
    show Ends (valueDeser (.object cls lib ms)).run
    rw [valueDeser]
    have he : ∀ e ∈ (memberNodes ms).map (fun m => (m.1, m.2.deser)), Ends e.2 := by
      rw [entries_memberNodes]
      intro e he
      obtain ⟨m, hm, rfl⟩ := List.mem_map.mp he
      exact (decodeM_ends ms m hm).1
    refine run_ends ?_ trivial he
    refine objectAny_cases VCall.Ends cls lib (memberNodes ms) he ?_ ?_
    · intro name P visit h _ _
      refine unboxed_ends he ?_
      rcases boxTable_visit h with ⟨_, rfl⟩ | ⟨_, rfl⟩ | ⟨_, rfl⟩ | ⟨_, rfl⟩ | ⟨_, rfl⟩
      all_goals intro d; cases d <;> first | trivial | simp [visitBool, visitInt, visitChar, visitF32, visitF64, VCall.Ends]
    · intro _ _
      cases hm : listMembers (memberNodes ms) with
      | none => simp [VCall.Ends]
      | some p =>
        obtain ⟨items, size⟩ := p
        obtain ⟨_, vs, _, rfl, hi, _, _⟩ := listMembers_some hm
        exact (decodeM_ends ms _ hi).2
  | .null => by
    show Ends (valueDeser .null).run
    rw [valueDeser]; exact run_ends trivial trivial trivial
  | .boolean _ | .byte _ | .char _ | .decimal _ | .double _ | .int16 _ | .int32 _ | .int64 _ | .sbyte _ | .single _
  | .timeSpan _ | .dateTime _ | .uint16 _ | .uint32 _ | .uint64 _ | .string _ => by
    show Ends (valueDeser _).run
    rw [valueDeser]; exact plain_ends trivial
theorem decodeL_ends : ∀ (vs : List Value), ∀ v ∈ vs, Ends (decode v)
  | [], v, hv => by simp at hv
  | v' :: vs, v, hv => by
    rcases List.mem_cons.mp hv with h | h
    · exact h ▸ decode_ends v'
    · exact decodeL_ends vs v h
theorem decodeM_ends : ∀ (ms : List (Str × Value)), ∀ m ∈ ms, Ends (decode m.2) ∧ ∀ c ∈ itemsOf m.2, Ends c
  | [], m, hm => by simp at hm
  | (k, v) :: ms, m, hm => by
    rcases List.mem_cons.mp hm with h | h
    · exact h ▸ ⟨decode_ends v, itemsOf_ends v⟩
    · exact decodeM_ends ms m h
theorem itemsOf_ends : ∀ (v : Value), ∀ c ∈ itemsOf v, Ends c
  | .array vs, c, hc => by
    rw [itemsOf, itemDesers_eq] at hc
    obtain ⟨v, hv, rfl⟩ := List.mem_map.mp hc
    exact decodeL_ends vs v hv
  | .object .., c, hc | .null, c, hc
  | .boolean _, c, hc | .byte _, c, hc | .char _, c, hc | .decimal _, c, hc | .double _, c, hc | .int16 _, c, hc
  | .int32 _, c, hc | .int64 _, c, hc | .sbyte _, c, hc | .single _, c, hc | .timeSpan _, c, hc | .dateTime _, c, hc
  | .uint16 _, c, hc | .uint32 _, c, hc | .uint64 _, c, hc | .string _, c, hc => by simp [itemsOf] at hc
end

/-- **C51** Deserialising ends: `decode` never runs out of the fuel it is given, for all values and all
types, also recursively. -/
theorem C51 (v : Value) (T : Ty) : decode v T ≠ .error .hang := decode_ends v T

/-- **C51** (whole messages) `from_slice` ends, on every input and for every type. -/
theorem C51_fromSlice (T : Ty) (bytes : Bytes) : fromSlice T bytes ≠ .hang := by
  have hd := C01_terminates bytes
  cases hb : deserialize bytes with
  | hang => exact absurd hb hd
  | panic => unfold fromSlice; rw [hb]; simp
  | err e => rw [C43_malformed T bytes e hb]; simp
  | ok m =>
    cases m with
    | methodCall c => rw [C43_call T bytes c hb]; simp
    | methodReturn c => rw [C43_return T bytes c hb]; simp
    | value v =>
      by_cases hT : ∃ T', T = .option T'
      · obtain ⟨T', rfl⟩ := hT
        unfold fromSlice
        rw [hb]
        have h1 : ∀ e, (valueDeser v).any = .fail e → e ≠ .hang := by
          rintro e he rfl
          have := C51 v .bool
          rw [show decode v .bool = accept .bool (valueDeser v).any from rfl, he] at this
          exact this rfl
        by_cases hv : v = .null
        · subst hv
          simp only [messageDeser]
          rw [valueDeser]
          exact nofun
        · have hdef := valueDeser_definite v hv
          have : (messageDeser (.value v)).run (.option T') ≠ .error .hang := by
            show (match (valueDeser v).any with
              | .fail e => .error e
              | .visitUnit | .visitNone => .ok .none
              | .visitSome => ((messageDeser (.value v)).run T').map .some
              | _ => .error .serde : DeResult Dyn) ≠ _
            cases hc : (valueDeser v).any <;> rw [hc] at hdef <;> first | exact hdef.elim | (simp; done) | skip
            simpa using h1 _ hc
          simp only
          split
          · simp
          · rename_i he; exact absurd he this
          · simp
      · rw [C43_value T bytes v hb (fun T' h => hT ⟨T', h⟩)]
        have := C51 v T
        unfold SliceResult.of
        split
        · simp
        · rename_i he; exact absurd he this
        · simp

end Nrbf
