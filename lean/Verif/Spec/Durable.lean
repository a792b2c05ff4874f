import Verif.Model.Durable
import Verif.Spec.Flush

/-! # What is on the disk -/

namespace FNLog.Spec

/-- The disk has the same files as the operating system, and of each file a first part. -/
def Behind (fs disk : Fs) : Prop :=
  ∀ p, (fs p = none ∧ disk p = none) ∨ ∃ x y, bytesOf disk p = some x ∧ bytesOf fs p = some (x ++ y)

/-- If the next event makes a file device close its file in order to start another one, the buffer of its stream is empty. -/
def FlushedFirst (S : Setup) (f : FCrew) (e : Act) : Prop :=
  ∀ t k d h text, e = .run t → f.fl t = .off → f.crew.ring.pc t = .cDisp k → S.channel.devices[f.crew.pos t]? = some d →
    d.outType = .file → decode (f.crew.ring.cell (k % S.cfg.L)) = some (h, text) →
    (limitOut d (f.crew.out.dev (f.crew.pos t)).logs (devLog h text).text.length = true ∨
      periodOut d (f.crew.out.dev (f.crew.pos t)).logs (devLog h text).ts = true) →
    f.buf (f.crew.pos t) = []

/-- At every event of a schedule. -/
def FlushedRun (S : Setup) (B : Stdio) : List Act → FCrew → Prop
  | [], _ => True
  | e :: es, f => FlushedFirst S f e ∧ ∀ f', fAct S B f e = some f' → FlushedRun S B es f'

end FNLog.Spec
