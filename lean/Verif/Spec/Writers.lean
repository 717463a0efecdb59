import Verif.Model.Writers

/-! Orders of the steps of several writes (specification). -/

namespace PoL.Spec
open Verkle

/-- A turn of writer `i`: it sets its leaf, or one call of the callback, reads and write together. -/
inductive Turn where
  | sets (i : ℕ)
  | calls (i : ℕ)

/-- Whose turn it is. -/
def Turn.writer : Turn → ℕ
  | .sets i => i
  | .calls i => i

/-- The events of a turn. -/
def Turn.events : Turn → List Event
  | .sets i => [.sets i]
  | .calls i => [.reads i, .writes i]

/-- The turns are those of `k` writers of paths of length `L`, each writer's in their order: first the leaf, then `L` calls
of the callback. -/
def Interleaving (k L : ℕ) (turns : List Turn) : Prop :=
  (∀ t ∈ turns, t.writer < k) ∧
  ∀ i < k, turns.filter (fun t => decide (t.writer = i)) = .sets i :: List.replicate L (.calls i)

/-- All events, turn by turn. -/
def eventsOf (turns : List Turn) : List Event := turns.flatMap Turn.events

/-- Whose event it is. -/
def eventWriter : Event → ℕ
  | .sets i => i
  | .reads i => i
  | .writes i => i

/-- The events are those of `k` writers of paths of length `L`, each writer's in their order: the leaf is set, then each of `L`
callbacks reads and writes.  Events of different writers can come in any order. -/
def OwnOrder (k L : ℕ) (events : List Event) : Prop :=
  (∀ e ∈ events, eventWriter e < k) ∧
  ∀ i < k, events.filter (fun e => decide (eventWriter e = i)) = .sets i :: (List.replicate L [.reads i, .writes i]).flatten

/-- The writes in the order in which their leaves are set. -/
def setOrder (news : List (List ℕ × ℤ)) (events : List Event) : List (List ℕ × ℤ) :=
  events.filterMap fun e => match e with
    | .sets i => news[i]?
    | _ => none

end PoL.Spec
