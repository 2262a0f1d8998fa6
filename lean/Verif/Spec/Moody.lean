import Verif.Spec.Scribe
/-
  Specification: a storage that behaves differently at every call.

  A `Cfg` fixes how a storage uses its freedom: it lists the same edges in the same order when asked twice, and a
  `Connect` always consumes the same number of identifiers.  Storages in use need not: iterating over a Go map
  gives another order each time.  Here every storage call has its own `Cfg`.  A mood is the sequence of these;
  theorems quantify over all moods, so the storage may decide by anything that happened before.
-/
namespace Semnet

/-- `Go.run` with a mood: the `n`-th storage call is answered by `g n`. -/
def Go.runs {α : Type} : Go α → (Nat → Cfg) → (Nat → Fate) → World → Out α × World
  | .ok a, _, _, w => (.ok a, w)
  | .err e, _, _, w => (.err e, w)
  | .panic, _, _, w => (.panic, w)
  | .spin, _, _, w => (.spin, w)
  | .op o k, g, f, w =>
    let r := w.store.step (g 0) o
    match f 0 with
    | .ok => (k r.1).runs (fun n => g (n + 1)) (fun n => f (n + 1)) ⟨r.2, w.mem⟩
    | .fail => (k (.error .fault)).runs (fun n => g (n + 1)) (fun n => f (n + 1)) w
    | .failLate => (k (.error .fault)).runs (fun n => g (n + 1)) (fun n => f (n + 1)) ⟨r.2, w.mem⟩
  | .getMem k, g, f, w => (k w.mem).runs g f w
  | .setMem u k, g, f, w => k.runs g f ⟨w.store, w.mem.set u⟩

/-- `Go.crashAfter` with a mood. -/
def Go.crashes {α : Type} : Nat → Go α → (Nat → Cfg) → (Nat → Fate) → World → Store
  | n + 1, .op o k, g, f, w =>
    let r := w.store.step (g 0) o
    match f 0 with
    | .ok => Go.crashes n (k r.1) (fun n => g (n + 1)) (fun n => f (n + 1)) ⟨r.2, w.mem⟩
    | .fail => Go.crashes n (k (.error .fault)) (fun n => g (n + 1)) (fun n => f (n + 1)) w
    | .failLate => Go.crashes n (k (.error .fault)) (fun n => g (n + 1)) (fun n => f (n + 1)) ⟨r.2, w.mem⟩
  | 0, .op _ _, _, _, w => w.store
  | n, .getMem k, g, f, w => Go.crashes n (k w.mem) g f w
  | n, .setMem u k, g, f, w => Go.crashes n k g f ⟨w.store, w.mem.set u⟩
  | _, _, _, _, w => w.store

namespace Spec

/-- the state after a call with this outcome -/
def State.ended (st : State) (c : Call) : Out (Option RemE) × World → State
  | (.ok (some r), w) => ⟨w, st.log ++ (c.entry st.log r).toList⟩
  | (_, w) => ⟨w, st.log⟩

/-- one event, with the mood of the storage meanwhile -/
def State.felt (fuel : Nat) (st : State) : (Nat → Cfg) × Event → State
  | (g, .call c f) => st.ended c ((c.prog fuel st.log).runs g f st.world)
  | (g, .crash c f n) => ⟨World.open ((c.prog fuel st.log).crashes n g f st.world), st.log⟩
  | (_, .reopen) => ⟨World.open st.world.store, st.log⟩

/-- the state after a moody history on an empty storage -/
def moodily (cfg : Cfg) (fuel : Nat) (es : List ((Nat → Cfg) × Event)) : State :=
  es.foldl (State.felt fuel) (State.init cfg)

/-- In this mood the storage treats existing edges as `cfg` does; it is free to list edges in any order and to
    consume identifiers, anew at each call. -/
def Suits (cfg : Cfg) (g : Nat → Cfg) : Prop := ∀ n, (g n).dup = cfg.dup

/-- A history without failures and crashes, in moods that suit the storage. -/
structure CalmMoods (cfg : Cfg) (fuel : Nat) (es : List ((Nat → Cfg) × Event)) : Prop where
  calm : Calm cfg fuel (es.map Prod.snd)
  suits : ∀ e ∈ es, Suits cfg e.1

/-- A calm moody history that has created at least one remark, followed by any events in any moods. -/
structure StormyMoods (cfg : Cfg) (fuel : Nat) (es es' : List ((Nat → Cfg) × Event)) : Prop where
  start : CalmMoods cfg fuel es
  log : (moodily cfg fuel es).log ≠ []
  budget : Budget fuel (es'.map Prod.snd)
  suits : ∀ e ∈ es', Suits cfg e.1

/-- The remark of entry `e` reads back as promised, whatever the mood. -/
structure ReadableMoods (cfg : Cfg) (fuel : Nat) (log : List Entry) (w : World) (e : Entry) : Prop where
  /-- queries answer as expected -/
  ask : ∀ g, Suits cfg g → ∀ q a, e.answer log q = some a →
    ∃ w', (q.ask fuel e.handle).runs g Go.noFault w = (.ok a, w')
  /-- the identifier leads back to the remark -/
  get : ∀ g, Suits cfg g →
    ∃ w', (Graph.getRemark (Remark.getIdentifier e.handle)).runs g Go.noFault w = (.ok e.handle, w')

end Spec
end Semnet
