import Verif.Model.Operators

/-!
# Pipelines

`Op` enumerates the composable operators modelled in `Verif.Model.Operators`, `Pipeline` the chains
`source.pipe(a).pipe(b)…` (crates/rx_core_common/src/pipe/pipe_observable.rs).
-/

namespace Rx

/-- The composable operators. -/
inductive Op : Type → Type → Type → Type → Type 1 where
  | map {I E O : Type} (f : I → O) : Op I E O E
  | mapError {I E F : Type} (f : E → F) : Op I E I F
  | mapInto {I E O F : Type} (f : I → O) (g : E → F) : Op I E O F
  | mapNeverError {I : Type} (F : Type) : Op I Empty I F
  | mapNeverNext {E : Type} (O : Type) : Op Empty E O E
  | mapNeverBoth (O F : Type) : Op Empty Empty O F
  | filter {I E : Type} (p : I → Nat → Bool) : Op I E I E
  | filterMap {I E O : Type} (f : I → Option O) : Op I E O E
  | liftOption {I E : Type} : Op (Option I) E I E
  | tapNext {I E σ : Type} (f : σ → I → σ) (c : σ) : Op I E I E
  | onNext {I E σ : Type} (f : σ → I → Prog I E (Bool × σ)) (c : σ) : Op I E I E
  | identity {I E : Type} : Op I E I E
  | take {I E : Type} (n : Nat) : Op I E I E
  | skip {I E : Type} (n : Nat) : Op I E I E
  | scan {I E O : Type} (f : O → I → O) (seed : O) : Op I E O E
  | reduce {I E O : Type} (f : O → I → O) (seed : O) : Op I E O E
  | count {I E : Type} : Op I E Nat E
  | enumerate {I E : Type} : Op I E (I × Nat) E
  | pairwise {I E : Type} : Op I E (I × I) E
  | bufferCount {I E : Type} (n : Nat) : Op I E (List I) E
  | first {I E : Type} : Op I E I (FirstError E)
  | find {I E : Type} (p : I → Bool) : Op I E I (FindError E)
  | findIndex {I E : Type} (p : I → Bool) : Op I E Nat (FindError E)
  | elementAt {I E : Type} (index : Nat) (dflt : Option I) : Op I E I (ElementAtError E)
  | isEmpty {I E : Type} : Op I E Bool E
  | startWith {I E : Type} (v : I) : Op I E I E
  | endWith {I E : Type} (v : I) : Op I E I E
  | finalize {I E : Type} (cb : Nat) : Op I E I E
  | onSubscribe {I E : Type} (p : Prog I E Unit) : Op I E I E
  | tap {I E : Type} (side : ObsState I E) : Op I E I E
  | materialize {I E : Type} : Op I E (ObserverNotification I E) Empty
  | dematerialize {I E : Type} : Op (ObserverNotification I E) Empty I E
  | intoResult {I E : Type} : Op I E (Except E I) Empty
  | liftResult {I E : Type} : Op (Except E I) Empty I E

/-- The implementation of each operator. -/
def Op.impl {I E O F : Type} : Op I E O F → OpImpl I E O F
  | .map f => mapOp f
  | .mapError f => mapErrorOp f
  | .mapInto f g => mapIntoOp f g
  | .mapNeverError F => mapNeverErrorOp F
  | .mapNeverNext O => mapNeverNextOp O
  | .mapNeverBoth O F => mapNeverBothOp O F
  | .filter p => filterOp p
  | .filterMap f => filterMapOp f
  | .liftOption => liftOptionOp
  | .tapNext f c => tapNextOp f c
  | .onNext f c => onNextOp f c
  | .identity => identityOp
  | .take n => takeOp n
  | .skip n => skipOp n
  | .scan f seed => scanOp f seed
  | .reduce f seed => reduceOp f seed
  | .count => countOp
  | .enumerate => enumerateOp
  | .pairwise => pairwiseOp
  | .bufferCount n => bufferCountOp n
  | .first => firstOp
  | .find p => findOp p
  | .findIndex p => findIndexOp p
  | .elementAt i d => elementAtOp i d
  | .isEmpty => isEmptyOp
  | .startWith v => startWithOp v
  | .endWith v => endWithOp v
  | .finalize cb => finalizeOp cb
  | .onSubscribe p => onSubscribeOp p
  | .tap side => tapOp side
  | .materialize => materializeOp
  | .dematerialize => dematerializeOp
  | .intoResult => intoResultOp
  | .liftResult => liftResultOp

/-- A chain of operators between a source (left) and a destination (right). -/
inductive Pipeline : Type → Type → Type → Type → Type 1 where
  | nil {I E : Type} : Pipeline I E I E
  | cons {I E M G O F : Type} (op : Op I E M G) (rest : Pipeline M G O F) : Pipeline I E O F

namespace Pipeline

/-- State of the whole chain on top of a destination with state `S`. -/
def St : {I E O F : Type} → Pipeline I E O F → Type → Type
  | _, _, _, _, .nil, S => S
  | _, _, _, _, .cons op rest, S => op.impl.St × rest.St S

/-- The subscriber handed to the source. `Pipe::subscribe` (pipe_observable.rs:43-54) subscribes its
operator to the destination and passes the result to its own source, which may be another `Pipe`. -/
def sub {S : Type} : {I E O F : Type} → (p : Pipeline I E O F) → Sub S O F → Sub (p.St S) I E
  | _, _, _, _, .nil, D => D
  | _, _, _, _, .cons op rest, D => op.impl.sub (rest.sub D)

/-- Effect of subscribing the chain: downstream operators subscribe first
(pipe_observable.rs:48-53). -/
def init {S : Type} : {I E O F : Type} → (p : Pipeline I E O F) → Sub S O F → S → p.St S
  | _, _, _, _, .nil, _, s => s
  | _, _, _, _, .cons op rest, D, s => op.impl.init (rest.sub D) (rest.init D s)

/-- The destination's part of the state. -/
def bottom {S : Type} : {I E O F : Type} → (p : Pipeline I E O F) → p.St S → S
  | _, _, _, _, .nil, s => s
  | _, _, _, _, .cons _ rest, x => rest.bottom x.2

/-- `source.pipe(..)…subscribe(destination)`: everything a source (an arbitrary program against its
subscriber) does with the chain. -/
def subscribe {S I E O F β : Type} (p : Pipeline I E O F) (source : Prog I E β) (D : Sub S O F)
    (s : S) : β × p.St S :=
  source.run (p.sub D) (p.init D s)

/-- Appending an operator at the downstream end: `.pipe(op)`. -/
def snoc : {I E M G O F : Type} → Pipeline I E M G → Op M G O F → Pipeline I E O F
  | _, _, _, _, _, _, .nil, op => .cons op .nil
  | _, _, _, _, _, _, .cons a rest, op => .cons a (rest.snoc op)

/-- Two chains one after the other. -/
def append : {I E M G O F : Type} → Pipeline I E M G → Pipeline M G O F → Pipeline I E O F
  | _, _, _, _, _, _, .nil, q => q
  | _, _, _, _, _, _, .cons a rest, q => .cons a (rest.append q)

/-- The chain as one nested composite operator:
`a.compose_with(b)…` (composite_extension_compose.rs:5-13). -/
def composite : {I E O F : Type} → Pipeline I E O F → OpImpl I E O F
  | _, _, _, _, .nil => identityOp
  | _, _, _, _, .cons op rest => compositeOp op.impl rest.composite

end Pipeline

end Rx
