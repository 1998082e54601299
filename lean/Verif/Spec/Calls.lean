import Verif.Model.Visitor

/-! # The calls between the crate and a `Deserialize` implementation

The relations of `Model/Visitor.lean` again, rule by rule, with a log of what happens.  That they are the same relations
is a theorem. -/

set_option autoImplicit false

namespace Nrbf.Visitors

/-- What happens while a value is deserialised. -/
inductive Call where
  /-- A visitor is handed this value (as an option, that is: only if it is null), or the value is refused. -/
  | visit (v : Value)
  /-- A visitor calls `next_element`, `next_key` or `next_value`. -/
  | request
  /-- The visitor that was handed a value last, and has not returned, returns. -/
  | done

/-- The values that were handed out, in order. -/
def visits : List Call → List Value
  | [] => []
  | .visit v :: t => v :: visits t
  | .request :: t => visits t
  | .done :: t => visits t

/-- The number of requests. -/
def requests : List Call → Nat
  | [] => 0
  | .visit _ :: t => requests t
  | .request :: t => requests t + 1
  | .done :: t => requests t

/-- The number of visitors that have not returned, from `n` on. -/
def level (n : Nat) : List Call → Nat
  | [] => n
  | .visit _ :: t => level (n + 1) t
  | .request :: t => level n t
  | .done :: t => level (n - 1) t

/-- The largest such number at any time. -/
def deepest (n : Nat) : List Call → Nat
  | [] => n
  | .visit _ :: t => max n (deepest (n + 1) t)
  | .request :: t => deepest n t
  | .done :: t => max n (deepest (n - 1) t)

mutual
/-- A value and everything in it, in the order in which it is written: the value itself, then its elements or members. -/
def preorder : Value → List Value
  | .object c l ms => .object c l ms :: preorderMembers ms
  | .array vs => .array vs :: preorderItems vs
  | v => [v]
/-- The same for a list of values. -/
def preorderItems : List Value → List Value
  | [] => []
  | v :: vs => preorder v ++ preorderItems vs
/-- The same for the members of an object. -/
def preorderMembers : List (Str × Value) → List Value
  | [] => []
  | (_, v) :: ms => preorder v ++ preorderMembers ms
end

section
variable {ι α : Type} [Platform] [FloatLib] [TextLib]

mutual

/-- `Deserialize` with its log. -/
inductive LDeserialize (impls : ι → Impl ι α) : Value → ι → Res α → List Call → Prop
  | ignore {v i r} : impls i = .ignore r → LDeserialize impls v i r []
  | call {v i m V after r t} : impls i = .call m V after → LVisit impls v m V r t →
      LDeserialize impls v i (conclude after r) t

/-- `Visit` with its log. -/
inductive LVisit (impls : ι → Impl ι α) : Value → Method → Visitor ι α → Res α → List Call → Prop
  | none {V} : LVisit impls .null .option V (V.scalar .none) [.visit .null, .done]
  | some {v V r t} : v ≠ .null → LVisitSome impls v V.some r t → LVisit impls v .option V r t
  | structObject {c l ms V r t} : LVisitMap impls .str ms V r t →
      LVisit impls (.object c l ms) .struct V r (.visit (.object c l ms) :: (t ++ [.done]))
  | struct {v V r t} : (∀ c l ms, v ≠ .object c l ms) → LVisitAny impls v V r t → LVisit impls v .struct V r t
  | any {v m V r t} : m ≠ .option → m ≠ .struct → LVisitAny impls v V r t → LVisit impls v m V r t

/-- `VisitAny` with its log. -/
inductive LVisitAny (impls : ι → Impl ι α) : Value → Visitor ι α → Res α → List Call → Prop
  | scalar {v V s} : scalarOf v = .some s → LVisitAny impls v V (V.scalar s) [.visit v, .done]
  | array {vs V r rest count t} : LArrayRun impls V.seq vs 0 [] r rest count t →
      LVisitAny impls (.array vs) V (arrayEnd r rest.length count) (.visit (.array vs) :: (t ++ [.done]))
  | object {c l ms V r t} : objectCall c l ms = .map → LVisitMap impls .borrowedStr ms V r t →
      LVisitAny impls (.object c l ms) V r (.visit (.object c l ms) :: (t ++ [.done]))
  | boxed {c l ms V s} : objectCall c l ms = .boxed s →
      LVisitAny impls (.object c l ms) V (V.scalar s) [.visit (.object c l ms), .done]
  | fail {c l ms V e} : objectCall c l ms = .fail e → LVisitAny impls (.object c l ms) V (.error e) [.visit (.object c l ms), .done]
  | list {c l ms V vs size r count t} : objectCall c l ms = .list vs size → LListRun impls size V.seq vs 0 [] r count t →
      LVisitAny impls (.object c l ms) V (listEnd r count size) (.visit (.object c l ms) :: (t ++ [.done]))

/-- `VisitSome` with its log. -/
inductive LVisitSome (impls : ι → Impl ι α) : Value → SomeAction ι α → Res α → List Call → Prop
  | deserialize {v i after r t} : LDeserialize impls v i r t → LVisitSome impls v (.deserialize i after) (conclude after r) t
  | finish {v r} : LVisitSome impls v (.finish r) r []

/-- `VisitMap` with its log. -/
inductive LVisitMap (impls : ι → Impl ι α) : (Str → Scalar) → List (Str × Value) → Visitor ι α → Res α → List Call → Prop
  | mk {scalar ms V r rest count t} : LMapRun impls scalar (V.map ms.length) ms .none 0 [] r rest count t →
      LVisitMap impls scalar ms V (mapEnd r rest.length count) t

/-- `ArrayRun` with its log. -/
inductive LArrayRun (impls : ι → Impl ι α) : (seq : List (Res (Option α)) → SeqAction ι α) →
    List Value → Nat → List (Res (Option α)) → Res α → List Value → Nat → List Call → Prop
  | finish {seq vs n h r} : seq h = .finish r → LArrayRun impls seq vs n h r vs n []
  | element {seq v vs n h i a r rest count t t'} : seq h = .next i → LDeserialize impls v i a t →
      LArrayRun impls seq vs (n + 1) (h ++ [a.map .some]) r rest count t' →
      LArrayRun impls seq (v :: vs) n h r rest count (.request :: (t ++ t'))
  | exhausted {seq n h i r rest count t} : seq h = .next i → LArrayRun impls seq [] n (h ++ [.ok .none]) r rest count t →
      LArrayRun impls seq [] n h r rest count (.request :: t)

/-- `ListRun` with its log. -/
inductive LListRun (impls : ι → Impl ι α) : (size : Nat) → (seq : List (Res (Option α)) → SeqAction ι α) →
    List Value → Nat → List (Res (Option α)) → Res α → Nat → List Call → Prop
  | finish {size seq vs n h r} : seq h = .finish r → LListRun impls size seq vs n h r n []
  | element {size seq v vs n h i a r count t t'} : seq h = .next i → n < size → LDeserialize impls v i (.ok a) t →
      LListRun impls size seq vs (n + 1) (h ++ [.ok (.some a)]) r count t' →
      LListRun impls size seq (v :: vs) n h r count (.request :: (t ++ t'))
  | error {size seq v vs n h i e r count t t'} : seq h = .next i → n < size → LDeserialize impls v i (.error e) t →
      LListRun impls size seq vs n (h ++ [.error e]) r count t' →
      LListRun impls size seq (v :: vs) n h r count (.request :: (t ++ t'))
  | exhausted {size seq n h i r count t} : seq h = .next i → n < size →
      LListRun impls size seq [] (n + 1) (h ++ [.ok .none]) r count t → LListRun impls size seq [] n h r count (.request :: t)
  | full {size seq vs n h i r count t} : seq h = .next i → ¬ n < size →
      LListRun impls size seq vs n (h ++ [.ok .none]) r count t → LListRun impls size seq vs n h r count (.request :: t)

/-- `MapRun` with its log. -/
inductive LMapRun (impls : ι → Impl ι α) : (scalar : Str → Scalar) → (map : List (Res (Option α)) → MapAction ι α) →
    List (Str × Value) → Option Value → Nat → List (Res (Option α)) → Res α → List (Str × Value) → Nat → List Call → Prop
  | finish {scalar map ms p n h r} : map h = .finish r → LMapRun impls scalar map ms p n h r ms n []
  | key {scalar map k v ms p n h i r rest count t} : map h = .key i →
      LMapRun impls scalar map ms (.some v) (n + 1) (h ++ [(deserializeKey scalar k (impls i)).map .some]) r rest count t →
      LMapRun impls scalar map ((k, v) :: ms) p n h r rest count (.request :: t)
  | exhausted {scalar map p n h i r rest count t} : map h = .key i →
      LMapRun impls scalar map [] p n (h ++ [.ok .none]) r rest count t →
      LMapRun impls scalar map [] p n h r rest count (.request :: t)
  | value {scalar map v ms n h i a r rest count t t'} : map h = .value i → LDeserialize impls v i a t →
      LMapRun impls scalar map ms .none n (h ++ [a.map .some]) r rest count t' →
      LMapRun impls scalar map ms (.some v) n h r rest count (.request :: (t ++ t'))

end

/-- `FromSlice` with its log; nothing is handed out of a method call or return, or of an input that is not accepted. -/
inductive LFromSlice (impls : ι → Impl ι α) : Bytes → ι → Res α → List Call → Prop
  | ignore {w m i r} : deserialize w = .ok m → impls i = .ignore r → LFromSlice impls w i r []
  | methodCall {w c i m V after} : deserialize w = .ok (.methodCall c) → impls i = .call m V after →
      LFromSlice impls w i (conclude after (.error (SerdeError.invalidType .methodCall V.expecting).text)) []
  | methodReturn {w c i m V after} : deserialize w = .ok (.methodReturn c) → impls i = .call m V after →
      LFromSlice impls w i (conclude after (.error (SerdeError.invalidType .methodReturn V.expecting).text)) []
  | struct {w v i V after r t} : deserialize w = .ok (.value v) → impls i = .call .struct V after →
      LVisit impls v .struct V r t → LFromSlice impls w i (conclude after r) t
  | any {w v i m V after r t} : deserialize w = .ok (.value v) → impls i = .call m V after → m ≠ .struct →
      LVisitAny impls v V r t → LFromSlice impls w i (conclude after r) t
  | parsing {w e i} : deserialize w = .err e → LFromSlice impls w i (.error (SerdeError.parsing e).text) []

end

/-- Types that pass on every error and leave nothing out: they call the deserializer; after an error answer they return an
error; after a key they ask for its value or return an error; an option is deserialised. -/
structure Thorough {ι α : Type} (impls : ι → Impl ι α) : Prop where
  calls : ∀ i r, impls i ≠ .ignore r
  after : ∀ {i m V f}, impls i = .call m V f → ∀ e, ∃ e', f (.error e) = .error e'
  seq : ∀ {i m V f}, impls i = .call m V f → ∀ h e, ∃ e', V.seq (h ++ [.error e]) = .finish (.error e')
  map : ∀ {i m V f}, impls i = .call m V f → ∀ n h e, ∃ e', V.map n (h ++ [.error e]) = .finish (.error e')
  value : ∀ {i m V f}, impls i = .call m V f → ∀ n h j a, V.map n h = .key j →
    (∃ k, V.map n (h ++ [.ok (some a)]) = .value k) ∨ ∃ e, V.map n (h ++ [.ok (some a)]) = .finish (.error e)
  option : ∀ {i m V f}, impls i = .call m V f →
    (∃ j g, V.some = .deserialize j g ∧ ∀ e, ∃ e', g (.error e) = .error e') ∨ ∃ e, V.some = .finish (.error e)

end Nrbf.Visitors
