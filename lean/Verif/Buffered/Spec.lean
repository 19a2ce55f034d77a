import Verif.Buffered.Model
import Verif.Pending.Observe

/-!
# Vocabulary of the properties of buffered endpoints and senders

Everything is said about the visible events (`St.log`) and about what the two queues hold.
-/

namespace Verif.Buffered

open Verif.Py Verif.Queue Verif.Pending

variable {K D M R S : Type} [DecidableEq K]

/-- The states a buffered endpoint can get into, started on any queue files, when every event satisfies `P`. -/
inductive HReach (cfg : Cfg K D M R S) (P : Handler.HSt K D M R S → Handler.Label K D M R → Prop) :
    Handler.HSt K D M R S → Prop where
  | setup {q} : PReach cfg.codecs q → HReach cfg P (Handler.setup cfg q)
  | step {s l s'} : HReach cfg P s → P s l → Handler.step cfg s l = some s' → HReach cfg P s'

/-- The states a buffered sender can get into, started on any queue files, when every event satisfies `P`. -/
inductive SReach (cfg : Cfg K D M R S) (P : St K D M R S → Sender.Label K D R → Prop) : St K D M R S → Prop where
  | setup {q} : PReach cfg.codecs q → SReach cfg P (Sender.setup cfg q)
  | step {s l s'} : SReach cfg P s → P s l → Sender.step cfg s l = some s' → SReach cfg P s'

/-- No restriction on events. -/
def Any {A B : Type} : A → B → Prop := fun _ _ => True

/-- Keys that the component is responsible for: found at start-up, or acknowledged since. -/
def known : List (Ev K D M R) → List K
  | [] => []
  | .found e :: l => e.key :: known l
  | .foundFailed e :: l => e.key :: known l
  | .acked k _ _ :: l => k :: known l
  | _ :: l => known l

/-- Keys of messages that were handled successfully. -/
def handled : List (Ev K D M R) → List K
  | [] => []
  | .succeeded k :: l => k :: handled l
  | _ :: l => handled l

/-- Keys of messages removed by an operator. -/
def removed : List (Ev K D M R) → List K
  | [] => []
  | .popped k :: l => k :: removed l
  | .cleared ks :: l => ks ++ removed l
  | _ :: l => removed l

/-- Keys of messages whose attempt ended in an exception. -/
def lostKeys : List (Ev K D M R) → List K
  | [] => []
  | .lost k :: l => k :: lostKeys l
  | _ :: l => lostKeys l

/-- Messages being handled. -/
def inFlight : List (Task K D M) → List (PEntry K D M)
  | [] => []
  | .inFlight e :: l => e :: inFlight l
  | _ :: l => inFlight l

/-- Every message has its own span key. -/
def Fresh (log : List (Ev K D M R)) : Prop := (known log).Nodup

instance (log : List (Ev K D M R)) : Decidable (Fresh log) := inferInstanceAs (Decidable (known log).Nodup)

/-- Attempts made on `k` since it was acknowledged or moved back from the error queue; a message found at
start-up brings its count along. -/
def attempts (k : K) : List (Ev K D M R) → Nat
  | [] => 0
  | .found e :: l => if e.key = k then e.retries else attempts k l
  | .acked k' _ _ :: l => if k' = k then 0 else attempts k l
  | .requeued ks :: l => if k ∈ ks then 0 else attempts k l
  | .started e :: l => if e.key = k then attempts k l + 1 else attempts k l
  | _ :: l => attempts k l

/-- The number of attempts a failing message gets. -/
def cap (cfg : Cfg K D M R S) : Nat := max 1 cfg.maxRetries.toNat

/-- Nothing is started again after it succeeded. -/
def Settled (log : List (Ev K D M R)) : Prop :=
  ∀ newer older k, log = newer ++ .succeeded k :: older → ∀ e, .started e ∈ newer → e.key ≠ k

/-- `k` came in with payload `d` and metadata `m`: it was acknowledged with them, or found at start-up with
that metadata and a payload that reads as `d`. -/
def CameIn (build : D → Option D) (log : List (Ev K D M R)) (k : K) (d : D) (m : M) : Prop :=
  .acked k d m ∈ log ∨ (∃ e, .found e ∈ log ∧ e.key = k ∧ e.md = m ∧ build e.data = some d) ∨
    ∃ e, .foundFailed e ∈ log ∧ e.key = k ∧ e.md = m ∧ build e.data = some d

/-- What a worker that looks at a queue holding `lp` does next: it takes the oldest message, unless paused.
Returns what stays queued and what can be seen. -/
def turn (build : D → Option D) (paused : Bool) (lp : List (K × PEntry K D M)) :
    List (K × PEntry K D M) × List (Ev K D M R) :=
  match paused, lp with
  | true, lp => (lp, [])
  | false, [] => ([], [])
  | false, (k, e) :: rest => match build e.data with
    | some d => (rest, [.started { e with data := d }])
    | none => (rest, [.lost k])

/-- The messages handed over, newest first. -/
def starts : List (Ev K D M R) → List (PEntry K D M)
  | [] => []
  | .started e :: l => e :: starts l
  | _ :: l => starts l

/-- Several events of an endpoint. -/
def hrun (cfg : Cfg K D M R S) (s : Handler.HSt K D M R S) : List (Handler.Label K D M R) → Option (Handler.HSt K D M R S)
  | [] => some s
  | l :: ls => match Handler.step cfg s l with
    | none => none
    | some s' => hrun cfg s' ls

/-- Several events of a sender. -/
def srun (cfg : Cfg K D M R S) (s : St K D M R S) : List (Sender.Label K D R) → Option (St K D M R S)
  | [] => some s
  | l :: ls => match Sender.step cfg s l with
    | none => none
    | some s' => srun cfg s' ls

/-- No attempt ends with an exception. -/
def NoRaise : Handler.HSt K D M R S → Handler.Label K D M R → Prop := fun _ l => ∀ t, l ≠ .finish t .raise

/-- A worker is alive whenever an accepted request is put into the queue. -/
def PushWhileAwake : Handler.HSt K D M R S → Handler.Label K D M R → Prop := fun s l => ∀ i, l = .push i → s.core.noWorker = false

/-- No cancellation, and only payloads that are the JSON form of a message. -/
def NoCancel (cfg : Cfg K D M R S) : St K D M R S → Sender.Label K D R → Prop :=
  fun _ l => (∀ t, l ≠ .finish t .raise) ∧ ∀ k d, l = .enqueue k d → ∃ raw, cfg.build raw = some d

/-- The event of an endpoint that lets a worker run. -/
def HWork : Handler.Label K D M R → Prop
  | .start _ => True
  | .finish _ _ => True
  | _ => False

/-- The events that end a pause. -/
def HUnpauses : Handler.Label K D M R → Prop
  | .unpauseProcessing => True
  | .reprocessAll => True
  | .reprocessOne _ => True
  | _ => False

/-- The event of a sender that lets a worker run. -/
def SWork : Sender.Label K D R → Prop
  | .start _ => True
  | .finish _ _ => True
  | _ => False

/-- The events that end a pause. -/
def SUnpauses : Sender.Label K D R → Prop
  | .unpause => True
  | .reprocessAll => True
  | .reprocessOne _ => True
  | _ => False

/-- The queue a worker looks at next: what is pending, behind it a failed message that has attempts left. -/
def NextQueue (cfg : Cfg K D M R S) (tasks : List (Task K D M)) (lp lp1 : List (K × PEntry K D M)) : Prop :=
  lp1 = lp ∨ ∃ e ∈ inFlight tasks, lp1 = Queue.Spec.push lp ⟨e.key, e.retries + 1, e.data, cfg.keep e.md⟩ e.key

/-- A message was started, and it was the oldest one in the queue. -/
def StartedOldest (cfg : Cfg K D M R S) (log log' : List (Ev K D M R)) (q' : Pair K S) (lp1 : List (K × PEntry K D M))
    (le' : List (K × EEntry K D M R)) : Prop :=
  ∃ k e d rest, lp1 = (k, e) :: rest ∧ cfg.build e.data = some d ∧ starts log' = { e with data := d } :: starts log ∧
    PairHolds cfg.codecs q' rest le'

end Verif.Buffered
