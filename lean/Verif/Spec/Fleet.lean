import Verif.Model.Fleet
import Verif.Spec.Threads

/-!
# What the channels of a logger may expect of each other: nothing
-/

namespace FNLog

/-- A change of a date cache. -/
def Act.isDates : Act → Bool
  | .dates _ _ => true
  | _ => false

namespace Spec

/-- The events of a channel. -/
def ofChannel (i : Nat) (es : List (Nat × Act)) : List Act := (es.filter fun e => e.1 == i).map Prod.snd

/-- The same events, apart from changes of date caches. -/
def SameEvents (a b : List Act) : Prop := (a.filter fun e => !e.isDates) = b.filter fun e => !e.isDates

/-- The devices of channel `i` at the beginning. -/
def startOf (o : OutSt) (dev : Nat → Nat → DevSt) (i : Nat) : OutSt := ⟨o.fs, dev i, o.screen, o.net⟩

/-- File devices of different channels have different files. -/
def ChannelsApart (S : Nat → Setup) : Prop :=
  ∀ (i j : Nat) (a b : Device), i ≠ j → a ∈ (S i).channel.devices → b ∈ (S j).channel.devices → a.outType = .file →
    b.outType = .file → ∀ p, ¬ (FilesOf (S i).fenv (S i).channel.id a p ∧ FilesOf (S j).fenv (S j).channel.id b p)

/-- Channel `i` is in the state `s` of a channel that is alone. -/
structure AsAlone (S : Setup) (f : Fleet) (i : Nat) (s : Crew) : Prop where
  ring : (f.part i).ring = s.ring
  dev : (f.part i).dev = s.out.dev
  pos : (f.part i).pos = s.pos
  made : (f.part i).made = s.made
  visits : (f.part i).visits = s.visits
  files : ∀ d ∈ S.channel.devices, d.outType = .file → AgreeOn (FilesOf S.fenv S.channel.id d) f.fs s.out.fs

/-- `l` is what was there before, and then an interleaving of `own i` for all `i`. -/
def Interleaved {β : Type} (before l : List β) (own : Nat → List β) : Prop :=
  ∃ marked : List (Nat × β), l = before ++ marked.map Prod.snd ∧
    ∀ i, own i = before ++ (marked.filter fun x => x.1 == i).map Prod.snd

end Spec
end FNLog
