import Verif.Model.Parse
import Verif.Spec.Config

/-!
# Configuration documents

The settings of the manual (README.md 204-376), how they are written and what they mean.  Only the result
type `Config` is taken from the model.
-/

namespace FNLog.Spec

/-! ## Writing values -/

/-- A value as it stands in the file. -/
inductive ValText where
  | plain (v : List Char)
  | quoted (v : List Char)
  | listed (v : List Char)

def ValText.text : ValText → List Char
  | .plain v => v
  | .quoted v => '"' :: v ++ ['"']
  | .listed v => '[' :: v ++ [']']

def boolText (b : Bool) : List Char := if b then "true".toList else "false".toList

/-- Names of the priorities. -/
def prioText : Fin 7 → List Char
  | 0 => "trace".toList | 1 => "debug".toList | 2 => "info".toList | 3 => "warn".toList
  | 4 => "error".toList | 5 => "alarm".toList | 6 => "fatal".toList

def inText : InType → List Char
  | .null => "null".toList | .udp => "udp".toList

def outText : OutType → List Char
  | .null => "null".toList | .screen => "screen".toList | .file => "file".toList | .udp => "udp".toList
  | .virtual => "virtual".toList | .empty => "empty".toList

def itemText : BitItem → List Char
  | .one n => numeral 10 n
  | .range a b => numeral 10 a ++ ['-'] ++ numeral 10 b

/-- Items separated by a comma and a blank. -/
def listText : List BitItem → List Char
  | [] => []
  | [i] => itemText i
  | i :: is => itemText i ++ [',', ' '] ++ listText is

instance (i : Nat) (it : BitItem) : Decidable (it.Has i) := by
  cases it <;> unfold BitItem.Has <;> infer_instance

/-- The mask with exactly the bits `p`. -/
def maskOf (p : Nat → Bool) : Int := (BitVec.ofBoolListLE ((List.range 64).map p)).toInt

/-- May be written between quotes and is taken over as it is. -/
def TextOk (s : List Char) : Prop :=
  (∀ c ∈ s, c ≠ '"' ∧ c ≠ '#' ∧ c ≠ '\r' ∧ c ≠ '\n' ∧ c ≠ '\x00') ∧
  (∀ c r, s = c :: r → ¬ Blanks [c]) ∧ (∀ c r, s = r ++ [c] → ¬ Blanks [c])

/-! ## Settings -/

/-- Settings of the filter, the same for channels and devices. -/
inductive FilterSetting where
  | priority (p : Fin 7)
  | category (n : Int) | categoryExtend (n : Int)
  | categoryWmask (n : Int) | categoryBmask (n : Int)
  | categoryWlist (l : List BitItem) | categoryBlist (l : List BitItem)
  | identify (n : Int) | identifyExtend (n : Int)
  | identifyWmask (n : Int) | identifyBmask (n : Int)
  | identifyWlist (l : List BitItem) | identifyBlist (l : List BitItem)

inductive DevSetting where
  | filter (f : FilterSetting)
  | disable (b : Bool)
  | inType (i : InType) | outType (o : OutType)
  | path (s : List Char) | file (s : List Char)
  /-- in millions of bytes -/
  | limitSize (n : Int)
  | rollback (n : Int)
  | rolldaily (b : Bool) | rollhourly (b : Bool) | stuffUp (b : Bool)
  | udpAddr (a b c d port : Nat)

inductive ChanSetting where
  | filter (f : FilterSetting)
  | sync (t : ChannelType)

inductive ChanLine where
  | set (s : ChanSetting)
  | device (ss : List DevSetting)

inductive TopLine where
  | hotUpdate (b : Bool)
  | loggerName (s : List Char) | loggerDesc (s : List Char)
  | shmKey (n : Int)
  | channel (ls : List ChanLine)

/-! ## How they are written -/

def FilterSetting.key : FilterSetting → List Char
  | .priority _ => "priority".toList
  | .category _ => "category".toList
  | .categoryExtend _ => "category_extend".toList
  | .categoryWmask _ => "category_wmask".toList
  | .categoryBmask _ => "category_bmask".toList
  | .categoryWlist _ => "category_wlist".toList
  | .categoryBlist _ => "category_blist".toList
  | .identify _ => "identify".toList
  | .identifyExtend _ => "identify_extend".toList
  | .identifyWmask _ => "identify_wmask".toList
  | .identifyBmask _ => "identify_bmask".toList
  | .identifyWlist _ => "identify_wlist".toList
  | .identifyBlist _ => "identify_blist".toList

def FilterSetting.val : FilterSetting → ValText
  | .priority p => .plain (prioText p)
  | .category n | .categoryExtend n | .categoryWmask n | .categoryBmask n => .plain (decimal n)
  | .identify n | .identifyExtend n | .identifyWmask n | .identifyBmask n => .plain (decimal n)
  | .categoryWlist l | .categoryBlist l | .identifyWlist l | .identifyBlist l => .listed (listText l)

def DevSetting.key : DevSetting → List Char
  | .filter f => f.key
  | .disable _ => "disable".toList
  | .inType _ => "in_type".toList
  | .outType _ => "out_type".toList
  | .path _ => "path".toList
  | .file _ => "file".toList
  | .limitSize _ => "limit_size".toList
  | .rollback _ => "rollback".toList
  | .rolldaily _ => "rolldaily".toList
  | .rollhourly _ => "rollhourly".toList
  | .stuffUp _ => "stuff_up".toList
  | .udpAddr .. => "udp_addr".toList

def DevSetting.val : DevSetting → ValText
  | .filter f => f.val
  | .disable b | .rolldaily b | .rollhourly b | .stuffUp b => .plain (boolText b)
  | .inType i => .plain (inText i)
  | .outType o => .plain (outText o)
  | .path s | .file s => .quoted s
  | .limitSize n | .rollback n => .plain (decimal n)
  | .udpAddr a b c d port => .quoted (quadText a b c d ++ [':'] ++ numeral 10 port)

def ChanSetting.key : ChanSetting → List Char
  | .filter f => f.key
  | .sync _ => "sync".toList

def ChanSetting.val : ChanSetting → ValText
  | .filter f => f.val
  | .sync .async => .plain "async".toList
  | .sync .sync => .plain "sync".toList

/-- Indentations. -/
structure Layout where
  chan : Nat
  dev : Nat
  set : Nat

def line (indent : Nat) (dash : Bool) (key : List Char) (v : ValText) : List Char :=
  List.replicate indent ' ' ++ (if dash then ['-', ' '] else []) ++ key ++ [':', ' '] ++ v.text

def devLines (L : Layout) (i : Nat) (ss : List DevSetting) : List (List Char) :=
  line L.dev true "device".toList (.plain (numeral 10 i)) :: ss.map fun s => line L.set false s.key s.val

/-- The lines of a channel, the next device has number `i`. -/
def chanLines (L : Layout) : Nat → List ChanLine → List (List Char)
  | _, [] => []
  | i, .set s :: ls => line L.dev false s.key s.val :: chanLines L i ls
  | i, .device ss :: ls => devLines L i ss ++ chanLines L (i + 1) ls

/-- The lines of a document, the next channel has number `i`. -/
def docLines (L : Layout) : Nat → List TopLine → List (List Char)
  | _, [] => []
  | i, .hotUpdate b :: ts => line 0 false "hot_update".toList (.plain (boolText b)) :: docLines L i ts
  | i, .loggerName s :: ts => line 0 false "logger_name".toList (.quoted s) :: docLines L i ts
  | i, .loggerDesc s :: ts => line 0 false "logger_desc".toList (.quoted s) :: docLines L i ts
  | i, .shmKey n :: ts => line 0 false "shm_key".toList (.plain (decimal n)) :: docLines L i ts
  | i, .channel ls :: ts =>
    line L.chan true "channel".toList (.plain (numeral 10 i)) :: chanLines L 0 ls ++ docLines L (i + 1) ts

/-- The file. -/
def render (L : Layout) (doc : List TopLine) : List Char := (docLines L 0 doc).flatMap (· ++ ['\n'])

/-! ## What they mean -/

def FilterSetting.applyDev (f : FilterSetting) (d : Device) : Device :=
  match f with
  | .priority p => { d with cfg.priority := p.val }
  | .category n => { d with cfg.category := n }
  | .categoryExtend n => { d with cfg.categoryExtend := n }
  | .categoryWmask n => { d with cfg.categoryMask := n }
  | .categoryBmask n => { d with cfg.categoryMask := -1 - n }
  | .categoryWlist l => { d with cfg.categoryMask := maskOf fun i => decide (∃ it ∈ l, it.Has i) }
  | .categoryBlist l => { d with cfg.categoryMask := maskOf fun i => decide (¬ ∃ it ∈ l, it.Has i) }
  | .identify n => { d with cfg.identify := n }
  | .identifyExtend n => { d with cfg.identifyExtend := n }
  | .identifyWmask n => { d with cfg.identifyMask := n }
  | .identifyBmask n => { d with cfg.identifyMask := -1 - n }
  | .identifyWlist l => { d with cfg.identifyMask := maskOf fun i => decide (∃ it ∈ l, it.Has i) }
  | .identifyBlist l => { d with cfg.identifyMask := maskOf fun i => decide (¬ ∃ it ∈ l, it.Has i) }

def FilterSetting.applyChan (f : FilterSetting) (d : Channel) : Channel :=
  match f with
  | .priority p => { d with cfg.priority := p.val }
  | .category n => { d with cfg.category := n }
  | .categoryExtend n => { d with cfg.categoryExtend := n }
  | .categoryWmask n => { d with cfg.categoryMask := n }
  | .categoryBmask n => { d with cfg.categoryMask := -1 - n }
  | .categoryWlist l => { d with cfg.categoryMask := maskOf fun i => decide (∃ it ∈ l, it.Has i) }
  | .categoryBlist l => { d with cfg.categoryMask := maskOf fun i => decide (¬ ∃ it ∈ l, it.Has i) }
  | .identify n => { d with cfg.identify := n }
  | .identifyExtend n => { d with cfg.identifyExtend := n }
  | .identifyWmask n => { d with cfg.identifyMask := n }
  | .identifyBmask n => { d with cfg.identifyMask := -1 - n }
  | .identifyWlist l => { d with cfg.identifyMask := maskOf fun i => decide (∃ it ∈ l, it.Has i) }
  | .identifyBlist l => { d with cfg.identifyMask := maskOf fun i => decide (¬ ∃ it ∈ l, it.Has i) }

/-- A truth value in a field. -/
def flag (b : Bool) : Int := if b then 1 else 0

def DevSetting.apply (s : DevSetting) (d : Device) : Device :=
  match s with
  | .filter f => f.applyDev d
  | .disable b => { d with cfg.able := flag (!b) }
  | .inType i => { d with inType := i }
  | .outType o => { d with outType := o }
  | .path s => { d with path := s }
  | .file s => { d with file := s }
  | .limitSize n => { d with cfg.limitSize := n * 1000000 }
  | .rollback n => { d with cfg.rollback := n }
  | .rolldaily b => { d with cfg.rolldaily := flag b }
  | .rollhourly b => { d with cfg.rollhourly := flag b }
  | .stuffUp b => { d with cfg.stuffUp := flag b }
  | .udpAddr a b c e port => { d with cfg.udpIp := networkQuad a b c e, cfg.udpPort := networkPort port }

def ChanSetting.apply (s : ChanSetting) (c : Channel) : Channel :=
  match s with
  | .filter f => f.applyChan c
  | .sync t => { c with type := t }

/-- A device; everything not mentioned is zero, off or empty. -/
def devMeaning (i : Nat) (ss : List DevSetting) : Device := ss.foldl (fun d s => s.apply d) { id := i }

def ChanLine.apply (l : ChanLine) (c : Channel) : Channel :=
  match l with
  | .set s => s.apply c
  | .device ss =>
    let d := devMeaning c.devices.length ss
    { c with devices := c.devices ++ [d], virtualDeviceId := if d.outType = .virtual then d.id else c.virtualDeviceId }

def chanMeaning (i : Nat) (ls : List ChanLine) : Channel := ls.foldl (fun c l => l.apply c) { id := i }

def TopLine.apply (t : TopLine) (g : Config) : Config :=
  match t with
  | .hotUpdate b => { g with hotUpdate := b }
  | .loggerName s => { g with name := s }
  | .loggerDesc s => { g with desc := s }
  | .shmKey n => { g with shmKey := n }
  | .channel ls => { g with channels := g.channels ++ [chanMeaning g.channels.length ls] }

/-! ## Which ones are allowed -/

/-- Fits into `long long`. -/
def LL (n : Int) : Prop := -(2 ^ 63) ≤ n ∧ n < 2 ^ 63
/-- Fits into `int`. -/
def I32 (n : Int) : Prop := -(2 ^ 31) ≤ n ∧ n < 2 ^ 31

/-- `Num` is the range of categories and identifiers. -/
def FilterSetting.Ok (Num : Int → Prop) : FilterSetting → Prop
  | .priority _ => True
  | .category n | .categoryExtend n | .identify n | .identifyExtend n => Num n
  | .categoryWmask n | .categoryBmask n | .identifyWmask n | .identifyBmask n => LL n
  | .categoryWlist l | .categoryBlist l | .identifyWlist l | .identifyBlist l => ∀ it ∈ l, it.Small

def DevSetting.Ok (d : Device) : DevSetting → Prop
  | .filter f => f.Ok LL
  | .disable _ | .inType _ | .rolldaily _ | .rollhourly _ | .stuffUp _ => True
  | .outType o => o ≠ .null
  | .path s => TextOk s ∧ 1 ≤ s.length ∧ s.length < 199
  | .file s => TextOk s ∧ 1 ≤ s.length ∧ s.length < 49
  | .limitSize n => LL (n * 1000000)
  | .rollback n => LL n
  | .udpAddr a b c e port =>
    a < 256 ∧ b < 256 ∧ c < 256 ∧ e < 256 ∧ 0 < port ∧ port < 65536 ∧
      -- an enabled device that does not receive needs an address
      (d.cfg.able ≠ 0 → d.inType = .null → a ≠ 0 ∨ b ≠ 0 ∨ c ≠ 0 ∨ e ≠ 0)

def DevOk : List DevSetting → Device → Prop
  | [], _ => True
  | s :: ss, d => s.Ok d ∧ DevOk ss (s.apply d)

def ChanLine.Ok (c : Channel) : ChanLine → Prop
  | .set (.filter f) => f.Ok I32
  | .set (.sync _) => True
  | .device ss => c.devices.length < 20 ∧ DevOk ss { id := c.devices.length }

def ChanOk : List ChanLine → Channel → Prop
  | [], _ => True
  | l :: ls, c => l.Ok c ∧ ChanOk ls (l.apply c)

def TopLine.Ok (g : Config) : TopLine → Prop
  | .hotUpdate _ => True
  | .loggerName s => TextOk s ∧ s.length < 250
  | .loggerDesc s => TextOk s ∧ s.length < 50
  | .shmKey n => LL n
  | .channel ls => g.channels.length < 2 ∧ ChanOk ls { id := g.channels.length }

def DocOk : List TopLine → Config → Prop
  | [], g => g.channels ≠ []
  | t :: ts, g => t.Ok g ∧ DocOk ts (t.apply g)

/-! ## A document for a given configuration -/

def devDoc (d : Device) : List DevSetting :=
  [.disable (d.cfg.able = 0), .inType d.inType, .filter (.priority (Fin.ofNat 7 d.cfg.priority.toNat)),
    .filter (.category d.cfg.category), .filter (.categoryExtend d.cfg.categoryExtend),
    .filter (.categoryWmask d.cfg.categoryMask), .filter (.identify d.cfg.identify),
    .filter (.identifyExtend d.cfg.identifyExtend), .filter (.identifyWmask d.cfg.identifyMask),
    .limitSize (d.cfg.limitSize / 1000000), .rollback d.cfg.rollback, .rolldaily (d.cfg.rolldaily = 1),
    .rollhourly (d.cfg.rollhourly = 1), .stuffUp (d.cfg.stuffUp = 1)] ++
  (if d.outType = .null then [] else [.outType d.outType]) ++
  (if d.path = [] then [] else [.path d.path]) ++ (if d.file = [] then [] else [.file d.file]) ++
  (if d.cfg.udpPort = 0 then [] else
    let ip := d.cfg.udpIp.toNat
    [.udpAddr (ip % 256) (ip / 256 % 256) (ip / 65536 % 256) (ip / 16777216 % 256) (networkPort d.cfg.udpPort.toNat)])

def chanDoc (c : Channel) : List ChanLine :=
  [.set (.sync c.type), .set (.filter (.priority (Fin.ofNat 7 c.cfg.priority.toNat))),
    .set (.filter (.category c.cfg.category)), .set (.filter (.categoryExtend c.cfg.categoryExtend)),
    .set (.filter (.categoryWmask c.cfg.categoryMask)), .set (.filter (.identify c.cfg.identify)),
    .set (.filter (.identifyExtend c.cfg.identifyExtend)), .set (.filter (.identifyWmask c.cfg.identifyMask))] ++
  c.devices.map fun d => .device (devDoc d)

def configDoc (g : Config) : List TopLine :=
  [.hotUpdate g.hotUpdate, .loggerName g.name, .loggerDesc g.desc, .shmKey g.shmKey] ++
  g.channels.map fun c => .channel (chanDoc c)

/-- A device within the documented ranges. -/
structure DevExpressible (i : Nat) (d : Device) : Prop where
  id : d.id = i
  file : TextOk d.file ∧ d.file.length < 49
  path : TextOk d.path ∧ d.path.length < 199
  able : d.cfg.able = 0 ∨ d.cfg.able = 1
  priority : 0 ≤ d.cfg.priority ∧ d.cfg.priority ≤ 6
  category : LL d.cfg.category
  categoryExtend : LL d.cfg.categoryExtend
  categoryMask : LL d.cfg.categoryMask
  identify : LL d.cfg.identify
  identifyExtend : LL d.cfg.identifyExtend
  identifyMask : LL d.cfg.identifyMask
  limitSize : LL d.cfg.limitSize ∧ d.cfg.limitSize % 1000000 = 0
  rollback : LL d.cfg.rollback
  rolldaily : d.cfg.rolldaily = 0 ∨ d.cfg.rolldaily = 1
  rollhourly : d.cfg.rollhourly = 0 ∨ d.cfg.rollhourly = 1
  stuffUp : d.cfg.stuffUp = 0 ∨ d.cfg.stuffUp = 1
  udp : (d.cfg.udpIp = 0 ∧ d.cfg.udpPort = 0) ∨
    (0 ≤ d.cfg.udpIp ∧ d.cfg.udpIp < 2 ^ 32 ∧ 0 < d.cfg.udpPort ∧ d.cfg.udpPort < 65536 ∧
      (d.cfg.able = 1 → d.inType = .null → d.cfg.udpIp ≠ 0))

/-- A channel within the documented ranges.  The last virtual device is the one the streams report to. -/
structure ChanExpressible (i : Nat) (c : Channel) : Prop where
  id : c.id = i
  state : c.state = .null
  count : c.devices.length ≤ 20
  devices : ∀ j d, c.devices[j]? = some d → DevExpressible j d
  virtual : c.virtualDeviceId = ((c.devices.filter (·.outType = .virtual)).map (·.id)).getLastD 0
  priority : 0 ≤ c.cfg.priority ∧ c.cfg.priority ≤ 6
  category : I32 c.cfg.category
  categoryExtend : I32 c.cfg.categoryExtend
  categoryMask : LL c.cfg.categoryMask
  identify : I32 c.cfg.identify
  identifyExtend : I32 c.cfg.identifyExtend
  identifyMask : LL c.cfg.identifyMask

/-- A configuration within the documented ranges. -/
structure Expressible (g : Config) : Prop where
  count : 1 ≤ g.channels.length ∧ g.channels.length ≤ 2
  channels : ∀ i c, g.channels[i]? = some c → ChanExpressible i c
  name : TextOk g.name ∧ g.name.length < 250
  desc : TextOk g.desc ∧ g.desc.length < 50
  shmKey : LL g.shmKey

end FNLog.Spec
