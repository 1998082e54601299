import Verif.Spec.Visitor
import Verif.Spec.Fails

/-! # Types that do the same in different ways

Two `Deserialize` implementations are compared here by a relation between their values, such as "the second is the first,
converted".  They have to ask for the same things, as related types, as long as the answers were related, and to make
related results of related answers.  They only have to agree on the scalars and names that are in the value. -/

set_option autoImplicit false

namespace Nrbf.Visitors

section
variable [Platform] [FloatLib] [TextLib]

/-- What can be told about a value: its scalars, the numbers boxed in it, the names of members of objects in it, and that
there is none. -/
inductive Told : Value → Scalar → Prop
  | scalar {v s} : Says v s → Told v s
  | none : Told .null .none
  | boxed {cls c e : Str} {P : RTy} {w u : Value} {x : Dyn} {s : Scalar} : cls.takeWhile (· ≠ 96) = c → (c, e, P) ∈ boxClasses →
      decodeR w P = .ok x → BoxedPrim c P.erase x u → Says u s → Told (.object cls .none [(lit "m_value", w)]) s
  | key {c l ms k v} : (k, v) ∈ ms → Told (.object c l ms) (.borrowedStr k)
  | fieldKey {c l ms k v} : (k, v) ∈ ms → Told (.object c l ms) (.str k)
  | element {vs u s} : u ∈ vs → Told u s → Told (.array vs) s
  | member {c l ms k u s} : (k, u) ∈ ms → Told u s → Told (.object c l ms) s

end

section
variable {ι κ α β : Type}

/-- Results: both are values, which are related by `R`, or both are errors, with texts related by `E`. -/
inductive Related (E : Str → Str → Prop) {α β : Type} (R : α → β → Prop) : Res α → Res β → Prop
  | ok {a b} : R a b → Related E R (.ok a) (.ok b)
  | error {e e'} : E e e' → Related E R (.error e) (.error e')

/-- Lists of answers. -/
inductive AllRelated (E : Str → Str → Prop) (R : α → β → Prop) : List (Res (Option α)) → List (Res (Option β)) → Prop
  | nil : AllRelated E R [] []
  | cons {a b h h'} : Related E (Option.Rel R) a b → AllRelated E R h h' → AllRelated E R (a :: h) (b :: h')

/-- What is done next with a sequence. -/
inductive SeqRelated (I : ι → κ → Prop) (E : Str → Str → Prop) (R : α → β → Prop) : SeqAction ι α → SeqAction κ β → Prop
  | next {i k} : I i k → SeqRelated I E R (.next i) (.next k)
  | finish {r r'} : Related E R r r' → SeqRelated I E R (.finish r) (.finish r')

/-- What is done next with a map. -/
inductive MapRelated (I : ι → κ → Prop) (E : Str → Str → Prop) (R : α → β → Prop) : MapAction ι α → MapAction κ β → Prop
  | key {i k} : I i k → MapRelated I E R (.key i) (.key k)
  | value {i k} : I i k → MapRelated I E R (.value i) (.value k)
  | finish {r r'} : Related E R r r' → MapRelated I E R (.finish r) (.finish r')

/-- What is done with the result of another type. -/
def AfterRelated (E : Str → Str → Prop) (R : α → β → Prop) (f : Res α → Res α) (g : Res β → Res β) : Prop :=
  ∀ r r', Related E R r r' → Related E R (f r) (g r')

/-- What is done with `visit_some`. -/
inductive SomeRelated (I : ι → κ → Prop) (E : Str → Str → Prop) (R : α → β → Prop) : SomeAction ι α → SomeAction κ β → Prop
  | deserialize {i k f g} : I i k → AfterRelated E R f g → SomeRelated I E R (.deserialize i f) (.deserialize k g)
  | finish {r r'} : Related E R r r' → SomeRelated I E R (.finish r) (.finish r')

/-- Visitors, as far as they are told what satisfies `S`. -/
structure VisitorRelated (S : Scalar → Prop) (I : ι → κ → Prop) (E : Str → Str → Prop) (R : α → β → Prop)
    (V : Visitor ι α) (W : Visitor κ β) : Prop where
  expecting : V.expecting = W.expecting
  scalar : ∀ s, S s → Related E R (V.scalar s) (W.scalar s)
  some : SomeRelated I E R V.some W.some
  seq : ∀ h h', AllRelated E R h h' → SeqRelated I E R (V.seq h) (W.seq h')
  map : ∀ n h h', AllRelated E R h h' → MapRelated I E R (V.map n h) (W.map n h')
  enum : ∀ k, S (.borrowedStr k) → Related E R (V.enum k) (W.enum k)

/-- Implementations. -/
inductive ImplRelated (S : Scalar → Prop) (I : ι → κ → Prop) (E : Str → Str → Prop) (R : α → β → Prop) : Impl ι α → Impl κ β → Prop
  | call {m V W f g} : VisitorRelated S I E R V W → AfterRelated E R f g → ImplRelated S I E R (.call m V f) (.call m W g)
  | ignore {r r'} : Related E R r r' → ImplRelated S I E R (.ignore r) (.ignore r')

/-- Two implementations that differ at most in what they make of scalars and names for which `S` does not hold. -/
inductive SameFor (S : Scalar → Prop) : Impl ι α → Impl ι α → Prop
  | call {m f expecting some seq map scalar scalar' enum enum'} : (∀ s, S s → scalar s = scalar' s) →
      (∀ k, S (.borrowedStr k) → enum k = enum' k) →
      SameFor S (.call m ⟨expecting, scalar, some, seq, map, enum⟩ f) (.call m ⟨expecting, scalar', some, seq, map, enum'⟩ f)
  | ignore {r} : SameFor S (.ignore r) (.ignore r)

/-- A result is an error, or its value satisfies `P`. -/
def IfOk {α : Type} (P : α → Prop) (r : Res α) : Prop := ∀ a, r = .ok a → P a

/-- All values in the answers so far satisfy `P`. -/
def AllOk (P : α → Prop) (h : List (Res (Option α))) : Prop := ∀ a, .ok (some a) ∈ h → P a

/-- An implementation makes values that satisfy `P` of scalars and names that satisfy `S` and of values that satisfy `P`. -/
inductive Preserves (S : Scalar → Prop) (P : α → Prop) : Impl ι α → Prop
  | call {m V f} : (∀ s, S s → IfOk P (V.scalar s)) → (∀ k, S (.borrowedStr k) → IfOk P (V.enum k)) →
      (∀ i g, V.some = .deserialize i g → ∀ r, IfOk P r → IfOk P (g r)) → (∀ r, V.some = .finish r → IfOk P r) →
      (∀ h r, AllOk P h → V.seq h = .finish r → IfOk P r) → (∀ n h r, AllOk P h → V.map n h = .finish r → IfOk P r) →
      (∀ r, IfOk P r → IfOk P (f r)) → Preserves S P (.call m V f)
  | ignore {r} : IfOk P r → Preserves S P (.ignore r)

end

end Nrbf.Visitors
