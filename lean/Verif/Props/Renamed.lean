import Verif.Spec.Renamed
import Verif.Props.Messages
import Verif.Model.Serde
import Verif.Props.Arrays
import Verif.Props.Write

/-! # C89: only the equality of ids matters -/

set_option autoImplicit false

namespace Nrbf
open Spec

variable [Platform]

/-! ## The first of the two is a message -/

theorem optLib_left {σ : Renaming} {c : Bool} {E : Env} {i j : Bytes} {E' : Env} {r s : Bytes}
    (h : ROptLib σ c E i j E' r s) : OptLib E i E' r := by
  cases h with
  | none a => exact .none a
  | some a _ b => exact .some a b

mutual
theorem member_left {σ : Renaming} {c : Bool} : ∀ {T : Option MemberType} {E : Env} {i j : Bytes} {slot : Slot} {E' : Env}
    {r s : Bytes}, RMember σ c T E i j slot E' r s → Member T E i slot E' r
  | _, _, _, _, _, _, _, _, .primitive a b => .primitive (optLib_left a) b
  | _, _, _, _, _, _, _, _, .reference a b _ => .reference (optLib_left a) b
  | _, _, _, _, _, _, _, _, .string a b _ => .string (optLib_left a) b
  | _, _, _, _, _, _, _, _, .nulls a b => .nulls (optLib_left a) b
  | _, _, _, _, _, _, _, _, .object a b => .object (optLib_left a) (class_left b)
  | _, _, _, _, _, _, _, _, .typedPrimitive a b => .typedPrimitive (optLib_left a) b
  | _, _, _, _, _, _, _, _, .typedString a b _ => .typedString (optLib_left a) b
  | _, _, _, _, _, _, _, _, .typedObject a b => .typedObject (optLib_left a) (member_left b)
  | _, _, _, _, _, _, _, _, .typedObjectArray a b => .typedObjectArray (optLib_left a) (member_left b)
  | _, _, _, _, _, _, _, _, .systemClass a b => .systemClass (optLib_left a) (class_left b)
  | _, _, _, _, _, _, _, _, .systemClassNulls a b => .systemClassNulls (optLib_left a) b
  | _, _, _, _, _, _, _, _, .class a l b => .class (optLib_left a) l (class_left b)
  | _, _, _, _, _, _, _, _, .classNulls a l b => .classNulls (optLib_left a) l b
  | _, _, _, _, _, _, _, _, .stringArrayString a b _ => .stringArrayString (optLib_left a) b
  | _, _, _, _, _, _, _, _, .stringArrayReference a b _ => .stringArrayReference (optLib_left a) b
  | _, _, _, _, _, _, _, _, .stringArrayNulls a b => .stringArrayNulls (optLib_left a) b
  | _, _, _, _, _, _, _, _, .primitiveArray a b _ => .primitiveArray (optLib_left a) b
termination_by structural _ _ _ _ _ _ _ _ h => h
theorem members_left {σ : Renaming} {c : Bool} : ∀ {Ts : List (Option MemberType)} {E : Env} {i j : Bytes} {slots : List Slot}
    {E' : Env} {r s : Bytes}, RMembers σ c Ts E i j slots E' r s → Members Ts E i slots E' r
  | _, _, _, _, _, _, _, _, .nil => .nil
  | _, _, _, _, _, _, _, _, .cons a b => .cons (member_left a) (members_left b)
termination_by structural _ _ _ _ _ _ _ _ h => h
theorem fill_left {σ : Renaming} {c : Bool} : ∀ {T : Option MemberType} {len : Nat} {E : Env} {i j : Bytes} {slots : List Slot}
    {E' : Env} {r s : Bytes}, RFill σ c T len E i j slots E' r s → Fill T len E i slots E' r
  | _, _, _, _, _, _, _, _, _, .done => .done
  | _, _, _, _, _, _, _, _, _, .step l a b => .step l (member_left a) (fill_left b)
termination_by structural _ _ _ _ _ _ _ _ _ h => h
theorem resolve_left {σ : Renaming} {c : Bool} : ∀ {slots : List Slot} {E : Env} {i j : Bytes} {vs : List Value} {E' : Env}
    {r s : Bytes}, RResolve σ c slots E i j vs E' r s → Resolve slots E i vs E' r
  | _, _, _, _, _, _, _, _, .nil => .nil
  | _, _, _, _, _, _, _, _, .value a => .value (resolve_left a)
  | _, _, _, _, _, _, _, _, .nulls a => .nulls (resolve_left a)
  | _, _, _, _, _, _, _, _, .known k a => .known k (resolve_left a)
  | _, _, _, _, _, _, _, _, .next k a b => .next k (record_left a) (resolve_left b)
termination_by structural _ _ _ _ _ _ _ _ h => h
theorem class_left {σ : Renaming} {c : Bool} : ∀ {E : Env} {i j : Bytes} {id : Nat} {name : Str} {library : Option Str}
    {ms : List (Str × Value)} {E' : Env} {r s : Bytes}, RClass σ c E i j id name library ms E' r s →
    Spec.Class E i id name library ms E' r
  | _, _, _, _, _, _, _, _, _, _, .mk a b _ l d e => .mk (optLib_left a) b l (members_left d) (resolve_left e)
termination_by structural _ _ _ _ _ _ _ _ _ _ h => h
theorem record_left {σ : Renaming} {c : Bool} : ∀ {E : Env} {i j : Bytes} {id : Nat} {v : Value} {E' : Env} {r s : Bytes},
    RRecord σ c E i j id v E' r s → Record E i id v E' r
  | _, _, _, _, _, _, _, _, .object a => .object (class_left a)
  | _, _, _, _, _, _, _, _, .objectArray a _ b d => .objectArray a (fill_left b) (resolve_left d)
  | _, _, _, _, _, _, _, _, .primitiveArray a _ b => .primitiveArray a b
  | _, _, _, _, _, _, _, _, .stringArray a _ b d => .stringArray a (fill_left b) (resolve_left d)
  | _, _, _, _, _, _, _, _, .array a _ p b d e => .array a p (members_left b) (resolve_left d) e
  | _, _, _, _, _, _, _, _, .string a _ => .string a
termination_by structural _ _ _ _ _ _ _ _ h => h
end

theorem records_left {σ : Renaming} {c : Bool} {E : Env} {i j : Bytes} {E' : Env} {r s : Bytes}
    (h : RRecords σ c E i j E' r s) : Records E i E' r := by
  induction h with
  | nil => exact .nil
  | cons a _ ih => exact .cons (record_left a) ih

/-- **C89** The first of the two is a message of the grammar with this content. -/
theorem C89_left {σ : Renaming} {c : Bool} {w w' : Bytes} {m : RemotingMessage} (h : Renamed σ c w w' m) : Message w m := by
  obtain ⟨hh, _, a, t⟩ := h
  refine .mk hh (records_left a) ?_
  cases t with
  | value v => exact .value v
  | method b d =>
    refine .method (E1 := _) (i1 := _) ?_ (records_left d)
    cases b with
    | call f g k args =>
      refine .call f g ?_ args
      cases k with
      | some o x _ y z => exact .some (optLib_left o) x (fill_left y) (resolve_left z)
      | none x y => exact .none x y
    | «return» f g k args =>
      refine .return f g ?_ args
      cases k with
      | some o x _ y z => exact .some (optLib_left o) x (fill_left y) (resolve_left z)
      | none x y => exact .none x y

/-! ## So is the second -/

/-- The tables `F` are the tables `E` with the ids renamed. -/
structure Spec.Renaming.Tables (σ : Renaming) (E F : Env) : Prop where
  libs : ∀ l, F.libs (σ.lib l) = E.libs l
  objs : ∀ k, F.objs (σ.obj k) = E.objs k

/-- A slot with its id renamed. -/
def Spec.Renaming.slot (σ : Renaming) : Slot → Slot
  | .ref id => .ref (σ.obj id)
  | s => s

omit [Platform] in
theorem slot_size_renamed (σ : Renaming) (s : Slot) : (σ.slot s).size = s.size := by cases s <;> rfl

section Right

variable {σ : Renaming} (hσ : σ.Good) {c : Bool}

include hσ

omit [Platform] in
theorem tables_addLib {E F : Env} (h : σ.Tables E F) (id : Nat) (name : Str) :
    σ.Tables (E.addLib id name) (F.addLib (σ.lib id) name) := by
  refine ⟨fun l => ?_, h.objs⟩
  simp only [Env.addLib]
  by_cases hl : l = id
  · rw [if_pos hl, if_pos (by rw [hl])]
  · rw [if_neg hl, if_neg (fun e => hl (hσ.lib_inj _ _ e)), h.libs]

omit [Platform] in
theorem tables_add {E F : Env} (h : σ.Tables E F) (id : Nat) (v : Value) : σ.Tables (E.add id v) (F.add (σ.obj id) v) := by
  refine ⟨h.libs, fun l => ?_⟩
  simp only [Env.add]
  by_cases hl : l = id
  · rw [if_pos hl, if_pos (by rw [hl])]
  · rw [if_neg hl, if_neg (fun e => hl (hσ.obj_inj _ _ e)), h.objs]

omit [Platform] in
theorem tables_drop {E F : Env} (h : σ.Tables E F) (id : Nat) : σ.Tables (E.drop id) (F.drop (σ.obj id)) := by
  refine ⟨h.libs, fun l => ?_⟩
  simp only [Env.drop]
  by_cases hl : l = id
  · rw [if_pos hl, if_pos (by rw [hl])]
  · rw [if_neg hl, if_neg (fun e => hl (hσ.obj_inj _ _ e)), h.objs]

omit [Platform] in
theorem optLib_right {E F : Env} {i j : Bytes} {E' : Env} {r s : Bytes} (h : ROptLib σ c E i j E' r s) (hF : σ.Tables E F) :
    ∃ F', σ.Tables E' F' ∧ OptLib F j F' s := by
  cases h with
  | none _ a => exact ⟨_, hF, .none a⟩
  | some _ a b => exact ⟨_, tables_addLib hσ hF _ _, .some a (by rw [hF.libs, b])⟩

omit [Platform] hσ in
theorem memberTypes_renamed (h : ClassHead) : (σ.head h).memberTypes = h.memberTypes.map (Option.map σ.type) := by
  obtain ⟨id, name, names, types, lib⟩ := h
  cases types with
  | none => simp [ClassHead.memberTypes, Renaming.head]
  | some ts => simp [ClassHead.memberTypes, Renaming.head, Function.comp_def]

omit [Platform] hσ in
theorem hasLibrary_renamed {h : ClassHead} {E F : Env} {l : Option Str} (hl : h.HasLibrary E l) (hF : σ.Tables E F) :
    (σ.head h).HasLibrary F l := by
  obtain ⟨id, name, names, types, lib⟩ := h
  cases lib with
  | none => exact hl
  | some k =>
    obtain ⟨n, h1, h2⟩ := hl
    exact ⟨n, by rw [hF.libs, h1], h2⟩

mutual
theorem member_right : ∀ {T : Option MemberType} {E : Env} {i j : Bytes} {slot : Slot} {E' : Env} {r s : Bytes} {F : Env},
    RMember σ c T E i j slot E' r s → σ.Tables E F →
    ∃ F', σ.Tables E' F' ∧ Member (T.map σ.type) F j (σ.slot slot) F' s
  | _, _, _, _, _, _, _, _, _, .primitive a b, hF =>
    let ⟨_, h, o⟩ := optLib_right hσ a hF; ⟨_, h, .primitive o b⟩
  | _, _, _, _, _, _, _, _, _, .reference a _ b, hF =>
    let ⟨_, h, o⟩ := optLib_right hσ a hF; ⟨_, h, .reference o b⟩
  | _, _, _, _, _, _, _, _, _, .string a _ b, hF =>
    let ⟨_, h, o⟩ := optLib_right hσ a hF; ⟨_, h, .string o b⟩
  | _, _, _, _, _, _, _, _, _, .nulls a b, hF =>
    let ⟨_, h, o⟩ := optLib_right hσ a hF; ⟨_, h, .nulls o b⟩
  | _, _, _, _, _, _, _, _, _, .object a b, hF =>
    let ⟨_, h, o⟩ := optLib_right hσ a hF; let ⟨_, h', d⟩ := class_right b h; ⟨_, h', .object o d⟩
  | _, _, _, _, _, _, _, _, _, .typedPrimitive a b, hF =>
    let ⟨_, h, o⟩ := optLib_right hσ a hF; ⟨_, h, .typedPrimitive o b⟩
  | _, _, _, _, _, _, _, _, _, .typedString a _ b, hF =>
    let ⟨_, h, o⟩ := optLib_right hσ a hF; ⟨_, h, .typedString o b⟩
  | _, _, _, _, _, _, _, _, _, .typedObject a b, hF =>
    let ⟨_, h, o⟩ := optLib_right hσ a hF; let ⟨_, h', d⟩ := member_right b h; ⟨_, h', .typedObject o d⟩
  | _, _, _, _, _, _, _, _, _, .typedObjectArray a b, hF =>
    let ⟨_, h, o⟩ := optLib_right hσ a hF; let ⟨_, h', d⟩ := member_right b h; ⟨_, h', .typedObjectArray o d⟩
  | _, _, _, _, _, _, _, _, _, .systemClass a b, hF =>
    let ⟨_, h, o⟩ := optLib_right hσ a hF; let ⟨_, h', d⟩ := class_right b h; ⟨_, h', .systemClass o d⟩
  | _, _, _, _, _, _, _, _, _, .systemClassNulls a b, hF =>
    let ⟨_, h, o⟩ := optLib_right hσ a hF; ⟨_, h, .systemClassNulls o b⟩
  | _, _, _, _, _, _, _, _, _, .class a l b, hF =>
    let ⟨_, h, o⟩ := optLib_right hσ a hF; let ⟨_, h', d⟩ := class_right b h
    ⟨_, h', .class o ((h.libs _).trans l) d⟩
  | _, _, _, _, _, _, _, _, _, .classNulls a l b, hF =>
    let ⟨_, h, o⟩ := optLib_right hσ a hF; ⟨_, h, .classNulls o ((h.libs _).trans l) b⟩
  | _, _, _, _, _, _, _, _, _, .stringArrayString a _ b, hF =>
    let ⟨_, h, o⟩ := optLib_right hσ a hF; ⟨_, h, .stringArrayString o b⟩
  | _, _, _, _, _, _, _, _, _, .stringArrayReference a _ b, hF =>
    let ⟨_, h, o⟩ := optLib_right hσ a hF; ⟨_, h, .stringArrayReference o b⟩
  | _, _, _, _, _, _, _, _, _, .stringArrayNulls a b, hF =>
    let ⟨_, h, o⟩ := optLib_right hσ a hF; ⟨_, h, .stringArrayNulls o b⟩
  | _, _, _, _, _, _, _, _, _, .primitiveArray a _ b, hF =>
    let ⟨_, h, o⟩ := optLib_right hσ a hF; ⟨_, h, .primitiveArray o b⟩
termination_by structural _ _ _ _ _ _ _ _ _ h => h
theorem members_right : ∀ {Ts : List (Option MemberType)} {E : Env} {i j : Bytes} {slots : List Slot} {E' : Env} {r s : Bytes}
    {F : Env}, RMembers σ c Ts E i j slots E' r s → σ.Tables E F →
    ∃ F', σ.Tables E' F' ∧ Members (Ts.map (Option.map σ.type)) F j (slots.map σ.slot) F' s
  | _, _, _, _, _, _, _, _, _, .nil, hF => ⟨_, hF, .nil⟩
  | _, _, _, _, _, _, _, _, _, .cons a b, hF =>
    let ⟨_, h, x⟩ := member_right a hF; let ⟨_, h', y⟩ := members_right b h; ⟨_, h', .cons x y⟩
termination_by structural _ _ _ _ _ _ _ _ _ h => h
theorem fill_right : ∀ {T : Option MemberType} {len : Nat} {E : Env} {i j : Bytes} {slots : List Slot} {E' : Env} {r s : Bytes}
    {F : Env}, RFill σ c T len E i j slots E' r s → σ.Tables E F →
    ∃ F', σ.Tables E' F' ∧ Fill (T.map σ.type) len F j (slots.map σ.slot) F' s
  | _, _, _, _, _, _, _, _, _, _, .done, hF => ⟨_, hF, .done⟩
  | _, _, _, _, _, _, _, _, _, _, .step (slot := slot) l a b, hF =>
    let ⟨_, h, x⟩ := member_right a hF; let ⟨_, h', y⟩ := fill_right b h
    ⟨_, h', .step l x (by rw [slot_size_renamed σ slot]; exact y)⟩
termination_by structural _ _ _ _ _ _ _ _ _ _ h => h
theorem resolve_right : ∀ {slots : List Slot} {E : Env} {i j : Bytes} {vs : List Value} {E' : Env} {r s : Bytes} {F : Env},
    RResolve σ c slots E i j vs E' r s → σ.Tables E F →
    ∃ F', σ.Tables E' F' ∧ Resolve (slots.map σ.slot) F j vs F' s
  | _, _, _, _, _, _, _, _, _, .nil, hF => ⟨_, hF, .nil⟩
  | _, _, _, _, _, _, _, _, _, .value a, hF => let ⟨_, h, x⟩ := resolve_right a hF; ⟨_, h, .value x⟩
  | _, _, _, _, _, _, _, _, _, .nulls a, hF => let ⟨_, h, x⟩ := resolve_right a hF; ⟨_, h, .nulls x⟩
  | _, _, _, _, _, _, _, _, _, .known k a, hF =>
    let ⟨_, h, x⟩ := resolve_right a (tables_drop hσ hF _); ⟨_, h, .known ((hF.objs _).trans k) x⟩
  | _, _, _, _, _, _, _, _, _, .next k a b, hF =>
    let ⟨_, h, x⟩ := record_right a hF; let ⟨_, h', y⟩ := resolve_right b (tables_drop hσ h _)
    ⟨_, h', .next ((hF.objs _).trans k) x y⟩
termination_by structural _ _ _ _ _ _ _ _ _ h => h
theorem class_right : ∀ {E : Env} {i j : Bytes} {id : Nat} {name : Str} {library : Option Str}
    {ms : List (Str × Value)} {E' : Env} {r s : Bytes} {F : Env}, RClass σ c E i j id name library ms E' r s → σ.Tables E F →
    ∃ F', σ.Tables E' F' ∧ Spec.Class F j (σ.obj id) name library ms F' s
  | _, _, _, _, _, _, _, _, _, _, _, .mk (h := hd) a _ b l d e, hF =>
    let ⟨_, h, o⟩ := optLib_right hσ a hF
    let ⟨_, h', x⟩ := members_right d h
    let ⟨_, h'', y⟩ := resolve_right e h'
    ⟨_, h'', .mk (h := σ.head hd) o b (hasLibrary_renamed l h) (by rw [memberTypes_renamed]; exact x) y⟩
termination_by structural _ _ _ _ _ _ _ _ _ _ _ h => h
theorem record_right : ∀ {E : Env} {i j : Bytes} {id : Nat} {v : Value} {E' : Env} {r s : Bytes} {F : Env},
    RRecord σ c E i j id v E' r s → σ.Tables E F → ∃ F', σ.Tables E' F' ∧ Record F j (σ.obj id) v F' s
  | _, _, _, _, _, _, _, _, _, .object a, hF => let ⟨_, h, x⟩ := class_right a hF; ⟨_, h, .object x⟩
  | _, _, _, _, _, _, _, _, _, .objectArray _ a b d, hF =>
    let ⟨_, h, x⟩ := fill_right b hF; let ⟨_, h', y⟩ := resolve_right d h; ⟨_, h', .objectArray a x y⟩
  | _, _, _, _, _, _, _, _, _, .primitiveArray _ a b, hF => ⟨_, hF, .primitiveArray a b⟩
  | _, _, _, _, _, _, _, _, _, .stringArray _ a b d, hF =>
    let ⟨_, h, x⟩ := fill_right b hF; let ⟨_, h', y⟩ := resolve_right d h; ⟨_, h', .stringArray a x y⟩
  | _, _, _, _, _, _, _, _, _, .array _ a p b d e, hF =>
    let ⟨_, h, x⟩ := members_right b hF; let ⟨_, h', y⟩ := resolve_right d h
    ⟨_, h', .array a p (by rw [List.map_replicate] at x; exact x) y e⟩
  | _, _, _, _, _, _, _, _, _, .string _ a, hF => ⟨_, hF, .string a⟩
termination_by structural _ _ _ _ _ _ _ _ _ h => h
end

theorem records_right {E : Env} {i j : Bytes} {E' : Env} {r s : Bytes} (h : RRecords σ c E i j E' r s) :
    ∀ {F : Env}, σ.Tables E F → ∃ F', σ.Tables E' F' ∧ Records F j F' s := by
  induction h with
  | nil => exact fun hF => ⟨_, hF, .nil⟩
  | cons a _ ih =>
    intro F hF
    obtain ⟨_, h1, x⟩ := record_right hσ a hF
    obtain ⟨_, h2, y⟩ := ih (tables_add hσ h1 _ _)
    exact ⟨_, h2, .cons x y⟩

theorem callArray_right {root : Nat} {E F : Env} {i j : Bytes} {o : Option (List Value)} {E' : Env} {r s : Bytes}
    (h : RCallArray σ c root E i j o E' r s) (hF : σ.Tables E F) :
    ∃ F', σ.Tables E' F' ∧ CallArray (σ.obj root) F j o F' s := by
  cases h with
  | some a _ b d e =>
    obtain ⟨_, h1, x⟩ := optLib_right hσ a hF
    obtain ⟨_, h2, y⟩ := fill_right hσ d h1
    obtain ⟨_, h3, z⟩ := resolve_right hσ e h2
    exact ⟨_, h3, .some x b y z⟩
  | none _ _ a b => exact ⟨_, hF, .none a b⟩

/-- **C89** The second of the two is a message of the grammar with this content, too. -/
theorem C89_right {w w' : Bytes} {m : RemotingMessage} (h : Renamed σ c w w' m) : Message w' m := by
  obtain ⟨_, hh, a, t⟩ := h
  have h0 : σ.Tables Env.empty Env.empty := ⟨fun _ => rfl, fun _ => rfl⟩
  obtain ⟨_, h1, x⟩ := records_right hσ a h0
  refine .mk hh x ?_
  cases t with
  | value v =>
    refine .value ?_
    rcases v with ⟨h2, h3⟩ | ⟨h2, h3⟩
    · exact .inl ⟨by rw [h2, hσ.obj_zero], h3⟩
    · exact .inr ⟨fun e => h2 (hσ.obj_inj _ _ (e.trans hσ.obj_zero.symm)), by rw [h1.objs, h3]⟩
  | method b d =>
    cases b with
    | call f g k args =>
      obtain ⟨_, h2, y⟩ := callArray_right hσ k h1
      obtain ⟨_, h3, z⟩ := records_right hσ d h2
      exact .method (.call f g y args) z
    | «return» f g k args =>
      obtain ⟨_, h2, y⟩ := callArray_right hσ k h1
      obtain ⟨_, h3, z⟩ := records_right hσ d h2
      exact .method (.return f g y args) z

end Right

/-- **C89** Two messages that differ only in the ids, which a renaming takes to each other, are parsed to the same. -/
theorem C89 {σ : Renaming} (hσ : σ.Good) {c : Bool} {w w' : Bytes} {m : RemotingMessage} (h : Renamed σ c w w' m) :
    deserialize w = .ok m ∧ deserialize w' = .ok m :=
  ⟨C31_complete (C89_left h), C31_complete (C89_right hσ h)⟩

/-! ## Every message arises this way -/

omit [Platform] in
theorem clear_suffix {c : Bool} {i r : Bytes} (h : Clear c i) (hr : r <:+ i) : Clear c r :=
  fun hc q hq => h hc q (hq.trans hr)

omit [Platform] in
theorem type_twice (T : MemberType) : Renaming.same.type T = T := by cases T <;> rfl

omit [Platform] in
theorem head_twice (h : ClassHead) : Renaming.same.head h = h := by
  obtain ⟨k, name, names, types, lib⟩ := h
  have ht : Renaming.same.type = fun T => T := funext type_twice
  cases types <;> cases lib <;> simp [Renaming.head, ht] <;> simp [Renaming.same]

omit [Platform] in
theorem optLib_twice {c : Bool} {E : Env} {i : Bytes} {E' : Env} {r : Bytes} (h : OptLib E i E' r) (hc : Clear c i) :
    ROptLib .same c E i i E' r r ∧ r <:+ i := by
  cases h with
  | none a => exact ⟨.none a a fun h e => hc h _ (List.suffix_refl _) e a, List.suffix_refl _⟩
  | some a b => exact ⟨.some a a b, List.suffix_append ..⟩

omit [Platform] in
theorem optLib_twice' {c : Bool} {E : Env} {i : Bytes} {E' : Env} {b r : Bytes} (h : OptLib E i E' (b ++ r)) (hc : Clear c i) :
    ROptLib .same c E i i E' (b ++ r) (b ++ r) ∧ r <:+ i :=
  let ⟨h1, h2⟩ := optLib_twice h hc
  ⟨h1, (List.suffix_append ..).trans h2⟩

mutual
theorem member_twice {c : Bool} : ∀ {T : Option MemberType} {E : Env} {i : Bytes} {slot : Slot} {E' : Env} {r : Bytes},
    Member T E i slot E' r → Clear c i → RMember .same c T E i i slot E' r r ∧ r <:+ i
  | _, _, _, _, _, _, .primitive a b, hc => let ⟨o, s⟩ := optLib_twice' a hc; ⟨.primitive o b, s⟩
  | _, _, _, _, _, _, .reference a b, hc => let ⟨o, s⟩ := optLib_twice' a hc; ⟨.reference o b b, s⟩
  | _, _, _, _, _, _, .string a b, hc => let ⟨o, s⟩ := optLib_twice' a hc; ⟨.string o b b, s⟩
  | _, _, _, _, _, _, .nulls a b, hc => let ⟨o, s⟩ := optLib_twice' a hc; ⟨.nulls o b, s⟩
  | _, _, _, _, _, _, .object a b, hc =>
    let ⟨o, s⟩ := optLib_twice a hc; let ⟨x, t⟩ := class_twice b (clear_suffix hc s); ⟨.object o x, t.trans s⟩
  | _, _, _, _, _, _, .typedPrimitive a b, hc => let ⟨o, s⟩ := optLib_twice' a hc; ⟨.typedPrimitive o b, s⟩
  | _, _, _, _, _, _, .typedString a b, hc => let ⟨o, s⟩ := optLib_twice' a hc; ⟨.typedString o b b, s⟩
  | _, _, _, _, _, _, .typedObject a b, hc =>
    let ⟨o, s⟩ := optLib_twice a hc; let ⟨x, t⟩ := member_twice b (clear_suffix hc s); ⟨.typedObject o x, t.trans s⟩
  | _, _, _, _, _, _, .typedObjectArray a b, hc =>
    let ⟨o, s⟩ := optLib_twice a hc; let ⟨x, t⟩ := member_twice b (clear_suffix hc s); ⟨.typedObjectArray o x, t.trans s⟩
  | _, _, _, _, _, _, .systemClass a b, hc =>
    let ⟨o, s⟩ := optLib_twice a hc; let ⟨x, t⟩ := class_twice b (clear_suffix hc s); ⟨.systemClass o x, t.trans s⟩
  | _, _, _, _, _, _, .systemClassNulls a b, hc => let ⟨o, s⟩ := optLib_twice' a hc; ⟨.systemClassNulls o b, s⟩
  | _, _, _, _, _, _, .class a l b, hc =>
    let ⟨o, s⟩ := optLib_twice a hc; let ⟨x, t⟩ := class_twice b (clear_suffix hc s); ⟨.class o l x, t.trans s⟩
  | _, _, _, _, _, _, .classNulls a l b, hc => let ⟨o, s⟩ := optLib_twice' a hc; ⟨.classNulls o l b, s⟩
  | _, _, _, _, _, _, .stringArrayString a b, hc => let ⟨o, s⟩ := optLib_twice' a hc; ⟨.stringArrayString o b b, s⟩
  | _, _, _, _, _, _, .stringArrayReference a b, hc => let ⟨o, s⟩ := optLib_twice' a hc; ⟨.stringArrayReference o b b, s⟩
  | _, _, _, _, _, _, .stringArrayNulls a b, hc => let ⟨o, s⟩ := optLib_twice' a hc; ⟨.stringArrayNulls o b, s⟩
  | _, _, _, _, _, _, .primitiveArray a b, hc => let ⟨o, s⟩ := optLib_twice' a hc; ⟨.primitiveArray o b b, s⟩
termination_by structural _ _ _ _ _ _ h => h
theorem members_twice {c : Bool} : ∀ {Ts : List (Option MemberType)} {E : Env} {i : Bytes} {slots : List Slot} {E' : Env}
    {r : Bytes}, Members Ts E i slots E' r → Clear c i → RMembers .same c Ts E i i slots E' r r ∧ r <:+ i
  | _, _, _, _, _, _, .nil, _ => ⟨.nil, List.suffix_refl _⟩
  | _, _, _, _, _, _, .cons a b, hc =>
    let ⟨x, s⟩ := member_twice a hc; let ⟨y, t⟩ := members_twice b (clear_suffix hc s); ⟨.cons x y, t.trans s⟩
termination_by structural _ _ _ _ _ _ h => h
theorem fill_twice {c : Bool} : ∀ {T : Option MemberType} {len : Nat} {E : Env} {i : Bytes} {slots : List Slot} {E' : Env}
    {r : Bytes}, Fill T len E i slots E' r → Clear c i → RFill .same c T len E i i slots E' r r ∧ r <:+ i
  | _, _, _, _, _, _, _, .done, _ => ⟨.done, List.suffix_refl _⟩
  | _, _, _, _, _, _, _, .step l a b, hc =>
    let ⟨x, s⟩ := member_twice a hc; let ⟨y, t⟩ := fill_twice b (clear_suffix hc s); ⟨.step l x y, t.trans s⟩
termination_by structural _ _ _ _ _ _ _ h => h
theorem resolve_twice {c : Bool} : ∀ {slots : List Slot} {E : Env} {i : Bytes} {vs : List Value} {E' : Env} {r : Bytes},
    Resolve slots E i vs E' r → Clear c i → RResolve .same c slots E i i vs E' r r ∧ r <:+ i
  | _, _, _, _, _, _, .nil, _ => ⟨.nil, List.suffix_refl _⟩
  | _, _, _, _, _, _, .value a, hc => let ⟨x, s⟩ := resolve_twice a hc; ⟨.value x, s⟩
  | _, _, _, _, _, _, .nulls a, hc => let ⟨x, s⟩ := resolve_twice a hc; ⟨.nulls x, s⟩
  | _, _, _, _, _, _, .known k a, hc => let ⟨x, s⟩ := resolve_twice a hc; ⟨.known k x, s⟩
  | _, _, _, _, _, _, .next k a b, hc =>
    let ⟨x, s⟩ := record_twice a hc; let ⟨y, t⟩ := resolve_twice b (clear_suffix hc s); ⟨.next k x y, t.trans s⟩
termination_by structural _ _ _ _ _ _ h => h
theorem class_twice {c : Bool} : ∀ {E : Env} {i : Bytes} {id : Nat} {name : Str} {library : Option Str} {ms : List (Str × Value)}
    {E' : Env} {r : Bytes}, Spec.Class E i id name library ms E' r → Clear c i →
    RClass .same c E i i id name library ms E' r r ∧ r <:+ i
  | _, _, _, _, _, _, _, _, .mk a b l d e, hc =>
    let ⟨o, s⟩ := optLib_twice' a hc
    let ⟨x, t⟩ := members_twice d (clear_suffix hc s)
    let ⟨y, u⟩ := resolve_twice e (clear_suffix hc (t.trans s))
    ⟨.mk o b (by rw [head_twice]; exact b) l x y, u.trans (t.trans s)⟩
termination_by structural _ _ _ _ _ _ _ _ h => h
theorem record_twice {c : Bool} : ∀ {E : Env} {i : Bytes} {id : Nat} {v : Value} {E' : Env} {r : Bytes}, Record E i id v E' r →
    Clear c i → RRecord .same c E i i id v E' r r ∧ r <:+ i
  | _, _, _, _, _, _, .object a, hc => let ⟨x, s⟩ := class_twice a hc; ⟨.object x, s⟩
  | _, _, _, _, _, _, .objectArray a b d, hc =>
    let s0 := List.suffix_append ..
    let ⟨x, s⟩ := fill_twice b (clear_suffix hc s0)
    let ⟨y, t⟩ := resolve_twice d (clear_suffix hc (s.trans s0))
    ⟨.objectArray a a x y, t.trans (s.trans s0)⟩
  | _, _, _, _, _, _, .primitiveArray a b, _ => ⟨.primitiveArray a a b, List.suffix_append ..⟩
  | _, _, _, _, _, _, .stringArray a b d, hc =>
    let s0 := List.suffix_append ..
    let ⟨x, s⟩ := fill_twice b (clear_suffix hc s0)
    let ⟨y, t⟩ := resolve_twice d (clear_suffix hc (s.trans s0))
    ⟨.stringArray a a x y, t.trans (s.trans s0)⟩
  | _, _, _, _, _, _, .array a p b d e, hc =>
    let s0 := List.suffix_append ..
    let ⟨x, s⟩ := members_twice b (clear_suffix hc s0)
    let ⟨y, t⟩ := resolve_twice d (clear_suffix hc (s.trans s0))
    ⟨.array a (by rw [type_twice]; exact a) p x y e, t.trans (s.trans s0)⟩
  | _, _, _, _, _, _, .string a, _ => ⟨.string a a, List.suffix_append ..⟩
termination_by structural _ _ _ _ _ _ h => h
end

theorem records_twice {c : Bool} {E : Env} {i : Bytes} {E' : Env} {r : Bytes} (h : Records E i E' r) (hc : Clear c i) :
    RRecords .same c E i i E' r r ∧ r <:+ i := by
  induction h with
  | nil => exact ⟨.nil, List.suffix_refl _⟩
  | cons a _ ih =>
    obtain ⟨x, s⟩ := record_twice a hc
    obtain ⟨y, t⟩ := ih (clear_suffix hc s)
    exact ⟨.cons x y, t.trans s⟩

/-- **C89** The judgements for two messages cover every message of the grammar; if wherever byte 12 stands in it a library
record begins, then it is a message in the strict sense. -/
theorem C89_every {c : Bool} {w : Bytes} {m : RemotingMessage} (h : Message w m) (hc : Clear c w) : Renamed .same c w w m := by
  obtain ⟨hh, a, t⟩ := h
  have sfx : ∀ {a b : Bytes}, b <:+ a ++ b := fun {a b} => List.suffix_append a b
  obtain ⟨x, s⟩ := records_twice a (clear_suffix hc sfx)
  refine .mk hh hh x ?_
  have hc' := clear_suffix hc (s.trans sfx)
  cases t with
  | value v => exact .value v
  | method b d =>
    have hm : ∀ {root : Nat} {E : Env} {i : Bytes} {o : Option (List Value)} {E' : Env} {r : Bytes},
        CallArray root E i o E' r → Clear c i → RCallArray .same c root E i i o E' r r ∧ r <:+ i := by
      intro root E i o E' r k hk
      cases k with
      | some p q y z =>
        obtain ⟨p', s1⟩ := optLib_twice' p hk
        obtain ⟨y', s2⟩ := fill_twice y (clear_suffix hk s1)
        obtain ⟨z', s3⟩ := resolve_twice z (clear_suffix hk (s2.trans s1))
        exact ⟨.some p' q q y' z', s3.trans (s2.trans s1)⟩
      | none p q => exact ⟨.none p q p q, List.suffix_refl _⟩
    cases b with
    | call f g k args =>
      obtain ⟨k', s5⟩ := hm k (clear_suffix hc' sfx)
      obtain ⟨d', -⟩ := records_twice d (clear_suffix hc' (s5.trans sfx))
      exact .method (.call f g k' args) d'
    | «return» f g k args =>
      obtain ⟨k', s5⟩ := hm k (clear_suffix hc' sfx)
      obtain ⟨d', -⟩ := records_twice d (clear_suffix hc' (s5.trans sfx))
      exact .method (.return f g k' args) d'

/-! ## Every renaming of a strict message exists -/

section Exists

variable {σ : Renaming}

omit [Platform] in
theorem idsReplaced_refl (b : Bytes) : IdsReplaced σ b b := by
  induction b with
  | nil => exact .nil
  | cons x b ih => exact .byte x ih

omit [Platform] in
theorem idsReplaced_append {a a' b b' : Bytes} (h : IdsReplaced σ a a') (h' : IdsReplaced σ b b') :
    IdsReplaced σ (a ++ b) (a' ++ b') := by
  induction h with
  | nil => exact h'
  | byte x _ ih => exact .byte x ih
  | obj x y _ ih => rw [List.append_assoc, List.append_assoc]; exact .obj x y ih
  | lib x y _ ih => rw [List.append_assoc, List.append_assoc]; exact .lib x y ih

/-- What is read is not empty, its first byte is kept, and ids are replaced. -/
structure Like (σ : Renaming) (b b' : Bytes) : Prop where
  ids : IdsReplaced σ b b'
  first : ∃ x t t', b = x :: t ∧ b' = x :: t'

omit [Platform] in
theorem like_cons {x : UInt8} {t t' : Bytes} (h : IdsReplaced σ t t') : Like σ (x :: t) (x :: t') := ⟨.byte x h, _, _, _, rfl, rfl⟩

omit [Platform] in
theorem like_append {a a' b b' : Bytes} (h : Like σ a a') (h' : IdsReplaced σ b b') : Like σ (a ++ b) (a' ++ b') := by
  obtain ⟨i, x, t, t', rfl, rfl⟩ := h
  exact ⟨idsReplaced_append i h', _, _, _, rfl, rfl⟩

omit [Platform] in
theorem like_refl {b : Bytes} (h : b ≠ []) : Like σ b b := by
  cases b with
  | nil => exact absurd rfl h
  | cons x b => exact like_cons (idsReplaced_refl b)

/-- What remains: ids are replaced, and the first byte, if there is one, is kept. -/
structure Rest (σ : Renaming) (i k : Bytes) : Prop where
  ids : IdsReplaced σ i k
  first : k.head? = i.head?

omit [Platform] in
theorem rest_append {b b' i k : Bytes} (h : Like σ b b') (h' : IdsReplaced σ i k) : Rest σ (b ++ i) (b' ++ k) := by
  obtain ⟨i, x, t, t', rfl, rfl⟩ := h
  exact ⟨idsReplaced_append i h', rfl⟩

variable (hσ : σ.Good)

include hσ

omit [Platform] in
theorem obj_pos {id : Nat} (h : 0 < id) : 0 < σ.obj id := by
  apply Nat.pos_of_ne_zero
  intro e
  exact absurd (hσ.obj_inj _ _ (e.trans hσ.obj_zero.symm)) (by omega)

omit [Platform] in
theorem lib_pos {id : Nat} (h : 0 < id) : 0 < σ.lib id := by
  apply Nat.pos_of_ne_zero
  intro e
  exact absurd (hσ.lib_inj _ _ (e.trans hσ.lib_zero.symm)) (by omega)

omit [Platform] in
theorem obj_renamed {id : Nat} {b : Bytes} (h : IsId id b) : ∃ b', IsId (σ.obj id) b' ∧ IdsReplaced σ b b' := by
  refine ⟨_, ⟨obj_pos hσ h.1, hσ.obj_lt _ h.2.1, rfl⟩, ?_⟩
  have h2 : IsId (σ.obj id) (le 4 (σ.obj id)) := ⟨obj_pos hσ h.1, hσ.obj_lt _ h.2.1, rfl⟩
  have := IdsReplaced.obj h h2 .nil
  rwa [List.append_nil, List.append_nil] at this

omit [Platform] in
theorem lib_renamed {id : Nat} {b : Bytes} (h : IsId id b) : ∃ b', IsId (σ.lib id) b' ∧ IdsReplaced σ b b' := by
  refine ⟨_, ⟨lib_pos hσ h.1, hσ.lib_lt _ h.2.1, rfl⟩, ?_⟩
  have h2 : IsId (σ.lib id) (le 4 (σ.lib id)) := ⟨lib_pos hσ h.1, hσ.lib_lt _ h.2.1, rfl⟩
  have := IdsReplaced.lib h h2 .nil
  rwa [List.append_nil, List.append_nil] at this

omit [Platform] in
theorem root_renamed {root : Nat} {b : Bytes} (h : IsHeader root b) : ∃ b', IsHeader (σ.obj root) b' ∧ IdsReplaced σ b b' := by
  obtain ⟨r, t, h1, h2, rfl⟩ := h
  by_cases h0 : root = 0
  · subst h0
    exact ⟨_, ⟨r, t, by rw [hσ.obj_zero]; exact h1, h2, rfl⟩, idsReplaced_refl _⟩
  · obtain ⟨r', h3, h4⟩ := obj_renamed hσ (b := r) ⟨Nat.pos_of_ne_zero h0, h1.1, h1.2⟩
    refine ⟨_, ⟨r', t, ⟨h3.2.1, h3.2.2⟩, h2, rfl⟩, ?_⟩
    exact .byte _ (idsReplaced_append (idsReplaced_append (idsReplaced_append h4 (idsReplaced_refl _)) (idsReplaced_refl _))
      (idsReplaced_refl _))

omit [Platform] in
theorem reference_renamed {id : Nat} {b : Bytes} (h : IsReference id b) : ∃ b', IsReference (σ.obj id) b' ∧ Like σ b b' := by
  obtain ⟨b1, h1, rfl⟩ := h
  obtain ⟨b2, h2, h3⟩ := obj_renamed hσ h1
  exact ⟨_, ⟨b2, h2, rfl⟩, like_cons h3⟩

omit [Platform] in
theorem objectString_renamed {id : Nat} {s : Str} {b : Bytes} (h : IsObjectString id s b) :
    ∃ b', IsObjectString (σ.obj id) s b' ∧ Like σ b b' := by
  obtain ⟨b1, t, h1, ht, rfl⟩ := h
  obtain ⟨b2, h2, h3⟩ := obj_renamed hσ h1
  exact ⟨_, ⟨b2, t, h2, ht, rfl⟩, like_append (like_cons h3) (idsReplaced_refl _)⟩

omit [Platform] in
theorem library_renamed {id : Nat} {s : Str} {b : Bytes} (h : IsLibrary id s b) :
    ∃ b', IsLibrary (σ.lib id) s b' ∧ Like σ b b' := by
  obtain ⟨b1, t, h1, ht, rfl⟩ := h
  obtain ⟨b2, h2, h3⟩ := lib_renamed hσ h1
  exact ⟨_, ⟨b2, t, h2, ht, rfl⟩, like_append (like_cons h3) (idsReplaced_refl _)⟩

omit [Platform] in
theorem arrayHead_renamed {tag : UInt8} {id len : Nat} {b : Bytes} (h : IsArrayHead tag id len b) :
    ∃ b', IsArrayHead tag (σ.obj id) len b' ∧ Like σ b b' := by
  obtain ⟨b1, t, h1, ht, rfl⟩ := h
  obtain ⟨b2, h2, h3⟩ := obj_renamed hσ h1
  exact ⟨_, ⟨b2, t, h2, ht, rfl⟩, like_append (like_cons h3) (idsReplaced_refl _)⟩

omit [Platform] in
theorem primitiveArrayHead_renamed {id len : Nat} {t : PrimitiveType} {b : Bytes} (h : IsPrimitiveArrayHead id len t b) :
    ∃ b', IsPrimitiveArrayHead (σ.obj id) len t b' ∧ Like σ b b' := by
  obtain ⟨b1, h1, rfl⟩ := h
  obtain ⟨b2, h2, h3⟩ := arrayHead_renamed hσ h1
  exact ⟨_, ⟨b2, h2, rfl⟩, like_append h3 (idsReplaced_refl _)⟩

omit [Platform] hσ in
theorem typeByte_renamed (σ : Renaming) (T : MemberType) : memberTypeByte (σ.type T) = memberTypeByte T := by cases T <;> rfl

omit [Platform] in
theorem typeInfo_renamed {T : MemberType} {b : Bytes} (h : IsTypeInfo T b) :
    ∃ b', IsTypeInfo (σ.type T) b' ∧ IdsReplaced σ b b' := by
  cases T with
  | «class» name l =>
    obtain ⟨b1, b2, h1, h2, rfl⟩ := h
    obtain ⟨b3, h3, h4⟩ := lib_renamed hσ h2
    exact ⟨_, ⟨b1, b3, h1, h3, rfl⟩, idsReplaced_append (idsReplaced_refl _) h4⟩
  | _ => exact ⟨_, h, idsReplaced_refl _⟩

omit [Platform] in
theorem typeInfos_renamed {ts : List MemberType} : ∀ {b : Bytes}, IsSeq IsTypeInfo ts b →
    ∃ b', IsSeq IsTypeInfo (ts.map σ.type) b' ∧ IdsReplaced σ b b' := by
  induction ts with
  | nil => exact fun h => ⟨_, h, idsReplaced_refl _⟩
  | cons t ts ih =>
    intro b h
    obtain ⟨b1, b2, h1, h2, rfl⟩ := h
    obtain ⟨b3, h3, h4⟩ := typeInfo_renamed hσ h1
    obtain ⟨b5, h5, h6⟩ := ih h2
    exact ⟨_, ⟨b3, b5, h3, h5, rfl⟩, idsReplaced_append h4 h6⟩

omit [Platform] in
theorem memberTypeInfos_renamed {ts : List MemberType} {b : Bytes} (h : IsMemberTypes ts b) :
    ∃ b', IsMemberTypes (ts.map σ.type) b' ∧ IdsReplaced σ b b' := by
  obtain ⟨infos, h1, rfl⟩ := h
  obtain ⟨infos', h2, h3⟩ := typeInfos_renamed hσ h1
  refine ⟨_, ⟨infos', h2, rfl⟩, ?_⟩
  rw [List.map_map, show memberTypeByte ∘ σ.type = memberTypeByte from funext (typeByte_renamed σ)]
  exact idsReplaced_append (idsReplaced_refl _) h3

omit [Platform] in
theorem arrayKindHead_renamed {id : Nat} {kind : BinaryArrayType} {lengths : List Nat} {T : MemberType} {b : Bytes}
    (h : IsBinaryArrayHead id kind lengths T b) :
    ∃ b', IsBinaryArrayHead (σ.obj id) kind lengths (σ.type T) b' ∧ Like σ b b' := by
  obtain ⟨bid, brank, blens, bbounds, binfo, h1, h2, h3, h4, h5, h6, rfl⟩ := h
  obtain ⟨bid', h7, h8⟩ := obj_renamed hσ h1
  obtain ⟨binfo', h9, h10⟩ := typeInfo_renamed hσ h6
  refine ⟨_, ⟨bid', brank, blens, bbounds, binfo', h7, h2, h3, h4, h5, h9, rfl⟩, ?_⟩
  rw [typeByte_renamed]
  exact like_append (like_append (like_append (like_append (like_append (like_append (like_cons h8) (idsReplaced_refl _))
    (idsReplaced_refl _)) (idsReplaced_refl _)) (idsReplaced_refl _)) (idsReplaced_refl _)) h10

omit [Platform] in
theorem classHead_renamed {h : ClassHead} {b : Bytes} (hb : IsClassHead h b) :
    ∃ b', IsClassHead (σ.head h) b' ∧ Like σ b b' := by
  obtain ⟨id, name, names, types, library⟩ := h
  obtain ⟨bid, bname, bcount, bnames, btypes, blib, h1, h2, h3, h4, h5, h6, rfl⟩ := hb
  obtain ⟨bid', h7, h8⟩ := obj_renamed hσ h1
  have ht : ∃ btypes', (match (σ.head ⟨id, name, names, types, library⟩).types with
      | none => btypes' = []
      | some ts => ts.length = names.length ∧ IsMemberTypes ts btypes') ∧ IdsReplaced σ btypes btypes' := by
    cases types with
    | none => exact ⟨_, h5, idsReplaced_refl _⟩
    | some ts =>
      obtain ⟨b', h9, h10⟩ := memberTypeInfos_renamed hσ h5.2
      exact ⟨b', ⟨by rw [List.length_map]; exact h5.1, h9⟩, h10⟩
  have hl : ∃ blib', (match (σ.head ⟨id, name, names, types, library⟩).library with
      | none => blib' = []
      | some l => IsId l blib') ∧ IdsReplaced σ blib blib' := by
    cases library with
    | none => exact ⟨_, h6, idsReplaced_refl _⟩
    | some l => exact lib_renamed hσ h6
  obtain ⟨btypes', h11, h12⟩ := ht
  obtain ⟨blib', h13, h14⟩ := hl
  refine ⟨_, ⟨bid', bname, bcount, bnames, btypes', blib', h7, h2, h3, h4, h11, h13, rfl⟩, ?_⟩
  have htag : (σ.head ⟨id, name, names, types, library⟩).tag = ClassHead.tag ⟨id, name, names, types, library⟩ := by
    cases types <;> cases library <;> rfl
  rw [htag]
  exact like_append (like_append (like_append (like_append (like_append (like_cons h8) (idsReplaced_refl _))
    (idsReplaced_refl _)) (idsReplaced_refl _)) h12) h14

omit [Platform] in
theorem optLib_exists {τ : Renaming} {E : Env} {i j : Bytes} {E' : Env} {r s k' : Bytes}
    (h : ROptLib τ true E i j E' r s) (hk : Rest σ r k') : ∃ k, ROptLib σ true E i k E' r k' ∧ Rest σ i k := by
  cases h with
  | none a b c => exact ⟨k', .none a (.inl (by rw [hk.first]; exact c rfl)) c, hk⟩
  | some a b c =>
    obtain ⟨b', h1, h2⟩ := library_renamed hσ a
    exact ⟨_, .some a h1 c, rest_append h2 hk.ids⟩

omit hσ in
theorem primitive_ne_nil {t : PrimitiveType} {v : Value} {b : Bytes} (h : IsPrimitive t v b) : b ≠ [] := by
  rintro rfl
  cases t <;> cases v <;> simp [IsPrimitive, leInt, le, IsString, IsLengthPrefix] at h
  rename_i d
  obtain ⟨s, ⟨p, ⟨gs, -, x, -, -, -, hp, -⟩, -, hp', -⟩, -⟩ := h
  rw [hp'] at hp
  simp at hp

omit [Platform] hσ in
theorem nulls_ne_nil {n : Nat} {b : Bytes} (h : IsNulls n b) : b ≠ [] := by
  rcases h with ⟨_, rfl⟩ | ⟨_, _, rfl⟩ | ⟨_, _, rfl⟩ <;> simp

omit hσ in
theorem methodCall_ne_nil {f : BitVec 32} {name type : Str} {context : Option Str} {inline : Option (List Value)} {b : Bytes}
    (h : IsMethodCall f name type context inline b) : b ≠ [] := by
  rintro rfl
  simp [IsMethodCall] at h

omit hσ in
theorem methodReturn_ne_nil {f : BitVec 32} {value : Option Value} {context : Option Str} {inline : Option (List Value)}
    {b : Bytes} (h : IsMethodReturn f value context inline b) : b ≠ [] := by
  rintro rfl
  simp [IsMethodReturn] at h

mutual
theorem member_exists : ∀ {T : Option MemberType} {E : Env} {i j : Bytes} {slot : Slot} {E' : Env} {r s k' : Bytes},
    RMember .same true T E i j slot E' r s → Rest σ r k' → ∃ k, RMember σ true T E i k slot E' r k' ∧ Rest σ i k
  | _, _, _, _, _, _, _, _, _, .primitive a b, hk =>
    let ⟨_, o, h⟩ := optLib_exists hσ a (rest_append (like_refl (by obtain ⟨_, _, _, rfl⟩ := b; simp)) hk.ids)
    ⟨_, .primitive o b, h⟩
  | _, _, _, _, _, _, _, _, _, .reference a b _, hk =>
    let ⟨_, x, l⟩ := reference_renamed hσ b; let ⟨_, o, h⟩ := optLib_exists hσ a (rest_append l hk.ids)
    ⟨_, .reference o b x, h⟩
  | _, _, _, _, _, _, _, _, _, .string a b _, hk =>
    let ⟨_, x, l⟩ := objectString_renamed hσ b; let ⟨_, o, h⟩ := optLib_exists hσ a (rest_append l hk.ids)
    ⟨_, .string o b x, h⟩
  | _, _, _, _, _, _, _, _, _, .nulls a b, hk =>
    let ⟨_, o, h⟩ := optLib_exists hσ a (rest_append (like_refl (nulls_ne_nil b)) hk.ids); ⟨_, .nulls o b, h⟩
  | _, _, _, _, _, _, _, _, _, .object a b, hk =>
    let ⟨_, x, h⟩ := class_exists b hk; let ⟨_, o, h'⟩ := optLib_exists hσ a h; ⟨_, .object o x, h'⟩
  | _, _, _, _, _, _, _, _, _, .typedPrimitive a b, hk =>
    let ⟨_, o, h⟩ := optLib_exists hσ a (rest_append (like_refl (primitive_ne_nil b)) hk.ids); ⟨_, .typedPrimitive o b, h⟩
  | _, _, _, _, _, _, _, _, _, .typedString a b _, hk =>
    let ⟨_, x, l⟩ := objectString_renamed hσ b; let ⟨_, o, h⟩ := optLib_exists hσ a (rest_append l hk.ids)
    ⟨_, .typedString o b x, h⟩
  | _, _, _, _, _, _, _, _, _, .typedObject a b, hk =>
    let ⟨_, x, h⟩ := member_exists b hk; let ⟨_, o, h'⟩ := optLib_exists hσ a h; ⟨_, .typedObject o x, h'⟩
  | _, _, _, _, _, _, _, _, _, .typedObjectArray a b, hk =>
    let ⟨_, x, h⟩ := member_exists b hk; let ⟨_, o, h'⟩ := optLib_exists hσ a h; ⟨_, .typedObjectArray o x, h'⟩
  | _, _, _, _, _, _, _, _, _, .systemClass a b, hk =>
    let ⟨_, x, h⟩ := class_exists b hk; let ⟨_, o, h'⟩ := optLib_exists hσ a h; ⟨_, .systemClass o x, h'⟩
  | _, _, _, _, _, _, _, _, _, .systemClassNulls a b, hk =>
    let ⟨_, o, h⟩ := optLib_exists hσ a (rest_append (like_refl (nulls_ne_nil b)) hk.ids); ⟨_, .systemClassNulls o b, h⟩
  | _, _, _, _, _, _, _, _, _, .class a l b, hk =>
    let ⟨_, x, h⟩ := class_exists b hk; let ⟨_, o, h'⟩ := optLib_exists hσ a h; ⟨_, .class o l x, h'⟩
  | _, _, _, _, _, _, _, _, _, .classNulls a l b, hk =>
    let ⟨_, o, h⟩ := optLib_exists hσ a (rest_append (like_refl (nulls_ne_nil b)) hk.ids); ⟨_, .classNulls o l b, h⟩
  | _, _, _, _, _, _, _, _, _, .stringArrayString a b _, hk =>
    let ⟨_, x, l⟩ := objectString_renamed hσ b; let ⟨_, o, h⟩ := optLib_exists hσ a (rest_append l hk.ids)
    ⟨_, .stringArrayString o b x, h⟩
  | _, _, _, _, _, _, _, _, _, .stringArrayReference a b _, hk =>
    let ⟨_, x, l⟩ := reference_renamed hσ b; let ⟨_, o, h⟩ := optLib_exists hσ a (rest_append l hk.ids)
    ⟨_, .stringArrayReference o b x, h⟩
  | _, _, _, _, _, _, _, _, _, .stringArrayNulls a b, hk =>
    let ⟨_, o, h⟩ := optLib_exists hσ a (rest_append (like_refl (nulls_ne_nil b)) hk.ids); ⟨_, .stringArrayNulls o b, h⟩
  | _, _, _, _, _, _, _, _, _, .primitiveArray a b _, hk =>
    let ⟨_, x, l⟩ := reference_renamed hσ b; let ⟨_, o, h⟩ := optLib_exists hσ a (rest_append l hk.ids)
    ⟨_, .primitiveArray o b x, h⟩
termination_by structural _ _ _ _ _ _ _ _ _ h => h
theorem members_exists : ∀ {Ts : List (Option MemberType)} {E : Env} {i j : Bytes} {slots : List Slot} {E' : Env}
    {r s k' : Bytes}, RMembers .same true Ts E i j slots E' r s → Rest σ r k' →
    ∃ k, RMembers σ true Ts E i k slots E' r k' ∧ Rest σ i k
  | _, _, _, _, _, _, _, _, _, .nil, hk => ⟨_, .nil, hk⟩
  | _, _, _, _, _, _, _, _, _, .cons a b, hk =>
    let ⟨_, y, h⟩ := members_exists b hk; let ⟨_, x, h'⟩ := member_exists a h; ⟨_, .cons x y, h'⟩
termination_by structural _ _ _ _ _ _ _ _ _ h => h
theorem fill_exists : ∀ {T : Option MemberType} {len : Nat} {E : Env} {i j : Bytes} {slots : List Slot} {E' : Env}
    {r s k' : Bytes}, RFill .same true T len E i j slots E' r s → Rest σ r k' →
    ∃ k, RFill σ true T len E i k slots E' r k' ∧ Rest σ i k
  | _, _, _, _, _, _, _, _, _, _, .done, hk => ⟨_, .done, hk⟩
  | _, _, _, _, _, _, _, _, _, _, .step l a b, hk =>
    let ⟨_, y, h⟩ := fill_exists b hk; let ⟨_, x, h'⟩ := member_exists a h; ⟨_, .step l x y, h'⟩
termination_by structural _ _ _ _ _ _ _ _ _ _ h => h
theorem resolve_exists : ∀ {slots : List Slot} {E : Env} {i j : Bytes} {vs : List Value} {E' : Env} {r s k' : Bytes},
    RResolve .same true slots E i j vs E' r s → Rest σ r k' → ∃ k, RResolve σ true slots E i k vs E' r k' ∧ Rest σ i k
  | _, _, _, _, _, _, _, _, _, .nil, hk => ⟨_, .nil, hk⟩
  | _, _, _, _, _, _, _, _, _, .value a, hk => let ⟨_, x, h⟩ := resolve_exists a hk; ⟨_, .value x, h⟩
  | _, _, _, _, _, _, _, _, _, .nulls a, hk => let ⟨_, x, h⟩ := resolve_exists a hk; ⟨_, .nulls x, h⟩
  | _, _, _, _, _, _, _, _, _, .known e a, hk => let ⟨_, x, h⟩ := resolve_exists a hk; ⟨_, .known e x, h⟩
  | _, _, _, _, _, _, _, _, _, .next e a b, hk =>
    let ⟨_, y, h⟩ := resolve_exists b hk; let ⟨_, x, h'⟩ := record_exists a h; ⟨_, .next e x y, h'⟩
termination_by structural _ _ _ _ _ _ _ _ _ h => h
theorem class_exists : ∀ {E : Env} {i j : Bytes} {id : Nat} {name : Str} {library : Option Str} {ms : List (Str × Value)}
    {E' : Env} {r s k' : Bytes}, RClass .same true E i j id name library ms E' r s → Rest σ r k' →
    ∃ k, RClass σ true E i k id name library ms E' r k' ∧ Rest σ i k
  | _, _, _, _, _, _, _, _, _, _, _, .mk a b _ l d e, hk =>
    let ⟨_, z, h⟩ := resolve_exists e hk
    let ⟨_, y, h'⟩ := members_exists d h
    let ⟨_, x, like⟩ := classHead_renamed hσ b
    let ⟨_, o, h''⟩ := optLib_exists hσ a (rest_append like h'.ids)
    ⟨_, .mk o b x l y z, h''⟩
termination_by structural _ _ _ _ _ _ _ _ _ _ _ h => h
theorem record_exists : ∀ {E : Env} {i j : Bytes} {id : Nat} {v : Value} {E' : Env} {r s k' : Bytes},
    RRecord .same true E i j id v E' r s → Rest σ r k' → ∃ k, RRecord σ true E i k id v E' r k' ∧ Rest σ i k
  | _, _, _, _, _, _, _, _, _, .object a, hk => let ⟨_, x, h⟩ := class_exists a hk; ⟨_, .object x, h⟩
  | _, _, _, _, _, _, _, _, _, .objectArray a _ b d, hk =>
    let ⟨_, z, h⟩ := resolve_exists d hk
    let ⟨_, y, h'⟩ := fill_exists b h
    let ⟨_, x, like⟩ := arrayHead_renamed hσ a
    ⟨_, .objectArray a x y z, rest_append like h'.ids⟩
  | _, _, _, _, _, _, _, _, _, .primitiveArray a _ b, hk =>
    let ⟨_, x, like⟩ := primitiveArrayHead_renamed hσ a
    ⟨_, .primitiveArray a x b, rest_append (like_append like (idsReplaced_refl _)) hk.ids⟩
  | _, _, _, _, _, _, _, _, _, .stringArray a _ b d, hk =>
    let ⟨_, z, h⟩ := resolve_exists d hk
    let ⟨_, y, h'⟩ := fill_exists b h
    let ⟨_, x, like⟩ := arrayHead_renamed hσ a
    ⟨_, .stringArray a x y z, rest_append like h'.ids⟩
  | _, _, _, _, _, _, _, _, _, .array a _ p b d e, hk =>
    let ⟨_, z, h⟩ := resolve_exists d hk
    let ⟨_, y, h'⟩ := members_exists b h
    let ⟨_, x, like⟩ := arrayKindHead_renamed hσ a
    ⟨_, .array a x p y z e, rest_append like h'.ids⟩
  | _, _, _, _, _, _, _, _, _, .string a _, hk =>
    let ⟨_, x, like⟩ := objectString_renamed hσ a; ⟨_, .string a x, rest_append like hk.ids⟩
termination_by structural _ _ _ _ _ _ _ _ _ h => h
end

theorem records_exists {E : Env} {i j : Bytes} {E' : Env} {r s : Bytes} (h : RRecords .same true E i j E' r s) :
    ∀ {k' : Bytes}, Rest σ r k' → ∃ k, RRecords σ true E i k E' r k' ∧ Rest σ i k := by
  induction h with
  | nil => exact fun hk => ⟨_, .nil, hk⟩
  | cons a _ ih =>
    intro k' hk
    obtain ⟨_, y, h⟩ := ih hk
    obtain ⟨_, x, h'⟩ := record_exists hσ a h
    exact ⟨_, .cons x y, h'⟩

theorem callArray_exists {root : Nat} {E : Env} {i j : Bytes} {o : Option (List Value)} {E' : Env} {r s k' : Bytes}
    (h : RCallArray .same true root E i j o E' r s) (hk : Rest σ r k') :
    ∃ k, RCallArray σ true root E i k o E' r k' ∧ Rest σ i k := by
  cases h with
  | some a b _ d e =>
    obtain ⟨_, z, h1⟩ := resolve_exists hσ e hk
    obtain ⟨_, y, h2⟩ := fill_exists hσ d h1
    obtain ⟨_, x, like⟩ := arrayHead_renamed hσ b
    obtain ⟨_, o, h3⟩ := optLib_exists hσ a (rest_append like h2.ids)
    exact ⟨_, .some o b x y z, h3⟩
  | none a b _ _ => exact ⟨k', .none a b (by rw [hk.first]; exact a) (by rw [hk.first]; exact b), hk⟩

theorem renamed_exists {w w1 : Bytes} {m : RemotingMessage} (h : Renamed .same true w w1 m) :
    ∃ w', Renamed σ true w w' m ∧ IdsReplaced σ w w' := by
  obtain ⟨hh, _, a, t⟩ := h
  obtain ⟨h', hh', like⟩ := root_renamed hσ hh
  cases t with
  | value v =>
    obtain ⟨_, x, r⟩ := records_exists hσ a (k' := [11]) ⟨idsReplaced_refl _, rfl⟩
    exact ⟨_, .mk hh hh' x (.value v), idsReplaced_append like r.ids⟩
  | method b d =>
    obtain ⟨_, y, r⟩ := records_exists hσ d (k' := [11]) ⟨idsReplaced_refl _, rfl⟩
    cases b with
    | call f g k args =>
      obtain ⟨_, z, r2⟩ := callArray_exists hσ k r
      obtain ⟨_, x, r3⟩ := records_exists hσ a (rest_append (like_refl (methodCall_ne_nil g)) r2.ids)
      exact ⟨_, .mk hh hh' x (.method (.call f g z args) y), idsReplaced_append like r3.ids⟩
    | «return» f g k args =>
      obtain ⟨_, z, r2⟩ := callArray_exists hσ k r
      obtain ⟨_, x, r3⟩ := records_exists hσ a (rest_append (like_refl (methodReturn_ne_nil g)) r2.ids)
      exact ⟨_, .mk hh hh' x (.method (.return f g z args) y), idsReplaced_append like r3.ids⟩

/-- **C89** Every renaming of a (strict) message exists: it is the message with some of its bytes, namely ids, replaced. -/
theorem C89_exists {w : Bytes} {m : RemotingMessage} (h : Renamed .same true w w m) :
    ∃ w', Renamed σ true w w' m ∧ IdsReplaced σ w w' := renamed_exists hσ h

end Exists

/-- **C89** Ids are nothing but names.  Take any message in which byte 12 stands only where a library record begins, and any
renaming of object ids and of library ids that keeps different ids different (and 0, which is not an id): there is the renamed
message, it has the same length, and it is parsed to the same. -/
theorem C89_ids {w : Bytes} {m : RemotingMessage} (h : Message w m) (hc : Clear true w) {σ : Renaming} (hσ : σ.Good) :
    ∃ w', Renamed σ true w w' m ∧ IdsReplaced σ w w' ∧ deserialize w = .ok m ∧ deserialize w' = .ok m := by
  obtain ⟨w', h1, h2⟩ := C89_exists hσ (C89_every h hc)
  exact ⟨w', h1, h2, C89 hσ h1⟩

/-- **C89** So no target type can see the ids, either. -/
theorem C89_from_slice [FloatLib] {σ : Renaming} (hσ : σ.Good) {c : Bool} {w w' : Bytes} {m : RemotingMessage}
    (h : Renamed σ c w w' m) (T : Ty) : fromSlice T w = fromSlice T w' := by
  obtain ⟨h1, h2⟩ := C89 hσ h
  simp only [fromSlice, h1, h2]

/-! ## An example -/

/-- Exchanges two ids. -/
def swapId (a b : Nat) : Nat → Nat := fun k => if k = a then b else if k = b then a else k

omit [Platform] in
theorem swap_good {a b c d : Nat} (ha : 0 < a ∧ a < 2 ^ 31) (hb : 0 < b ∧ b < 2 ^ 31) (hc : 0 < c ∧ c < 2 ^ 31)
    (hd : 0 < d ∧ d < 2 ^ 31) : Renaming.Good ⟨swapId a b, swapId c d⟩ := by
  constructor <;> simp only [swapId]
  · intro x y h; split at h <;> split at h <;> (try split at h) <;> (try split at h) <;> omega
  · intro x y h; split at h <;> split at h <;> (try split at h) <;> (try split at h) <;> omega
  · split <;> (try split) <;> omega
  · split <;> (try split) <;> omega
  · intro x h; split <;> (try split) <;> omega
  · intro x h; split <;> (try split) <;> omega

open Tests (header)

/-- An array of references to two strings, whose ids are `a` and `b`. -/
def twoStrings (a b : UInt8) : Bytes :=
  header 1 ++ [16, 1,0,0,0, 2,0,0,0, 9, a,0,0,0, 9, b,0,0,0, 6, a,0,0,0, 1,120, 6, b,0,0,0, 1,121, 11]

theorem twoStrings_renamed : Renamed ⟨swapId 2 5, id⟩ true (twoStrings 2 3) (twoStrings 5 3)
    (.value (.array [.string [120], .string [121]])) := by
  have hid : ∀ {n : Nat} {b : Bytes}, 0 < n → n < 2 ^ 31 → b = le 4 n → IsId n b := fun a b c => ⟨a, b, c⟩
  have href : ∀ {n : Nat} {b : Bytes}, 0 < n → n < 2 ^ 31 → b = le 4 n → IsReference n (9 :: b) :=
    fun a b c => ⟨_, ⟨a, b, c⟩, rfl⟩
  have hstr : ∀ {n : Nat} {b : Bytes} (x : UInt8), IsUtf8 [x] → 0 < n → n < 2 ^ 31 → b = le 4 n →
      IsObjectString n [x] (6 :: b ++ [1, x]) := fun x hx a b c =>
    ⟨_, [1, x], ⟨a, b, c⟩, ⟨[1], ⟨[], 1, by simp, by omega, by simp, by simp, rfl, rfl⟩, hx, rfl⟩, rfl⟩
  have hlib : ∀ {x y : UInt8} {E : Env} {i j : Bytes}, x ≠ 12 → y ≠ 12 →
      ROptLib ⟨swapId 2 5, id⟩ true E (x :: i) (y :: j) E (x :: i) (y :: j) := fun h h' =>
    .none (.inl (by simpa using h)) (.inl (by simpa using h')) (fun _ => by simpa using h)
  have hhead : IsHeader 1 (header 1) := ⟨[1,0,0,0], [255,255,255,255], ⟨by omega, by decide⟩, rfl, by decide⟩
  refine .mk (root := 1) (h := header 1) (h' := header 1) (E := ((Env.empty.drop 2).drop 3).add 1 _) (i1 := [11]) (j1 := [11]) hhead hhead ?_
    (.value (.inr ⟨by omega, rfl⟩))
  refine .cons (E1 := (Env.empty.drop 2).drop 3) ?_ .nil
  refine .objectArray (len := 2) (b := [16, 1,0,0,0, 2,0,0,0]) (b' := [16, 1,0,0,0, 2,0,0,0]) (slots := [.ref 2, .ref 3])
    (E2 := Env.empty) (i2 := [6, 2,0,0,0, 1,120, 6, 3,0,0,0, 1,121, 11]) (j2 := [6, 5,0,0,0, 1,120, 6, 3,0,0,0, 1,121, 11])
    ⟨_, _, ⟨by omega, by omega, rfl⟩, ⟨by omega, rfl⟩, rfl⟩ ⟨_, _, ⟨by decide, by decide, rfl⟩, ⟨by omega, rfl⟩, rfl⟩
    (.step (by omega)
      (.reference (b := [9, 2,0,0,0]) (b' := [9, 5,0,0,0]) (hlib (by decide) (by decide)) (href (by omega) (by omega) rfl)
        (href (by decide) (by decide) rfl))
      (.step (by decide)
        (.reference (b := [9, 3,0,0,0]) (b' := [9, 3,0,0,0]) (hlib (by decide) (by decide)) (href (by omega) (by omega) rfl)
          (href (by decide) (by decide) rfl)) .done)) ?_
  refine .next rfl (.string (b := [6, 2,0,0,0, 1,120]) (b' := [6, 5,0,0,0, 1,120]) (hstr 120 ?_ (by omega) (by omega) rfl)
    (hstr 120 ?_ (by decide) (by decide) rfl)) (.next rfl (.string (b := [6, 3,0,0,0, 1,121]) (b' := [6, 3,0,0,0, 1,121])
    (hstr 121 ?_ (by omega) (by omega) rfl) (hstr 121 ?_ (by decide) (by decide) rfl)) .nil)
  · exact ⟨['x'], rfl⟩
  · exact ⟨['x'], rfl⟩
  · exact ⟨['y'], rfl⟩
  · exact ⟨['y'], rfl⟩

/-- `C89` is not vacuous: the two messages are parsed to the same. -/
example : deserialize (twoStrings 2 3) = .ok (.value (.array [.string [120], .string [121]])) ∧
    deserialize (twoStrings 5 3) = .ok (.value (.array [.string [120], .string [121]])) :=
  C89 (swap_good (a := 2) (b := 5) (c := 1) (d := 1) ⟨by omega, by omega⟩ ⟨by omega, by omega⟩ ⟨by omega, by omega⟩ ⟨by omega, by omega⟩)
    (c := true) (by
      have h : swapId 1 1 = id := by funext k; simp only [swapId]; split <;> simp_all
      rw [h]; exact twoStrings_renamed)

/-- `C89_ids` is not vacuous: the ids of this message can be renamed in any way. -/
example {σ : Renaming} (hσ : σ.Good) : ∃ w', Renamed σ true (twoStrings 2 3) w' (.value (.array [.string [120], .string [121]])) ∧
    IdsReplaced σ (twoStrings 2 3) w' ∧ deserialize w' = .ok (.value (.array [.string [120], .string [121]])) := by
  obtain ⟨w', h1, h2, -, h3⟩ := C89_ids (C89_left twoStrings_renamed) (fun _ q hq e => by
    have h12 : (12 : UInt8) ∈ twoStrings 2 3 := by
      cases q with
      | nil => simp at e
      | cons x q =>
        simp only [List.head?_cons, Option.some.injEq] at e
        exact hq.subset (by rw [e]; exact List.mem_cons_self)
    exact absurd h12 (by decide)) hσ
  exact ⟨w', h1, h2, h3⟩

/-- An object with a Byte member, which is 12, and a String member, whose id ends with `a`. -/
def byteTwelve (a : UInt8) : Bytes :=
  header 1 ++ [4, 1,0,0,0, 1,65, 2,0,0,0, 1,97, 1,98, 0, 1, 2, 12, 6, 2,0,0,a, 1,120, 11]

/-- **C89** The exception is real: if a bare primitive member starts with byte 12, the ids that follow decide whether it is taken for
a library. -/
theorem C89_exception : deserialize (byteTwelve 127) = .ok (.value (.object [65] none [([97], .byte 12), ([98], .string [120])])) ∧
    ∃ e, deserialize (byteTwelve 0) = .err e := by
  constructor
  · platform_decide
  · have key : ∀ o : ApiResult RemotingMessage, (match o with
        | .err _ => true
        | _ => false) = true → ∃ e, o = .err e := by
      intro o h
      cases o with
      | err e => exact ⟨e, rfl⟩
      | _ => cases h
    exact key _ (by platform_decide)

end Nrbf
