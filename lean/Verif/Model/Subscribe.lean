import Verif.Model.PublishOut
/-!
# SUBSCRIBE and UNSUBSCRIBE (v3 and v5 `packet/subscribe.rs`)
-/
namespace Akasa

/-- `TopicFilter::is_shared` of `mqtt_proto`. -/
def isShared (f : Str) : Bool := (sharedInfo f).isSome

/-- `filter.contains([MATCH_ONE_CHAR, MATCH_ALL_CHAR])`, `v5/packet/subscribe.rs:58`. -/
def hasWildcard (f : Str) : Bool := f.any fun c => decide (c = '+' ∨ c = '#')

/-- The loop over the retained messages, `v5/packet/subscribe.rs:86-117`: new session, packets to
send at once, and whether a message was queued. `j` numbers the messages (clock readings). -/
def sendRetainedV5 (now : Nat → Nat) (filter : Str) (opts : SubOpts) (granted : QoS) :
    Nat → Session → List RetainContent → Session × List OutPkt × Bool
  | _, s, [] => (s, [], false)
  | j, s, c :: cs =>
    if opts.noLocal && decide (c.publisher = s.identifier) then
      sendRetainedV5 now filter opts granted (j + 1) s cs
    else
      let r := recvPublishV5 (now j) s {
        topic := c.topic, qos := c.qos, retain := opts.retainAsPublished, payload := c.payload
        props := c.props, ids := .lookup filter, subQos := granted
        encodeLen := match c.props with
          | none => c.encodeLen + 1
          | some _ => c.encodeLen }
      let rest := sendRetainedV5 now filter opts granted (j + 1) r.1 cs
      match r.2 with
      | none => rest
      | some (finalQos, out) => (rest.1, out.toList ++ rest.2.1, decide (finalQos ≠ 0) || rest.2.2)

/-- `v5/packet/subscribe.rs:53-67`: the reason code for one filter. -/
def subscribeCode (cfg : Config) (filter : Str) (opts : SubOpts) : Reason :=
  let granted := min opts.maxQos cfg.maxAllowedQos
  if !cfg.sharedAvailable && isShared filter then .sharedSubscriptionNotSupported
  else if !cfg.wildcardAvailable && hasWildcard filter then .wildcardSubscriptionsNotSupported
  else .grantedQos granted

/-- `v5/packet/subscribe.rs:77-83`: are retained messages sent? -/
def sendsRetained (cfg : Config) (filter : Str) (opts : SubOpts) (existed : Bool) : Bool :=
  cfg.retainAvailable && !isShared filter &&
    match opts.retainHandling with
    | .sendAtSubscribe => true
    | .sendAtSubscribeIfNotExist => !existed
    | .doNotSend => false

/-- `v5/packet/subscribe.rs:69-122`: the effect of one accepted filter (the `i`-th of the packet).
`none` = panic (in the routing table or the retained store). -/
def acceptV5 (cfg : Config) (env : Env) (i : Nat) (g : Global) (s : Session) (filter : Str)
    (opts : SubOpts) (id : Option Nat) : Option (Session × Global × List OutPkt) :=
  let granted := min opts.maxQos cfg.maxAllowedQos
  let existed := s.subscribes.contains filter
  let opts := { opts with maxQos := granted }
  let s := { s with subscribes := s.subscribes.insert filter { opts, id } }
  match g.route.subscribe filter s.clientId granted with
  | none => none
  | some route =>
    let g := { g with route }
    if sendsRetained cfg filter opts existed then
      match g.retain.getMatches filter with
      | none => none
      | some cs =>
        let r := sendRetainedV5 (env.now i) filter opts granted 0 s cs
        if r.2.2 then
          let p := handlePendingsV5 (env.clk i) r.1
          some (p.1, g, r.2.1 ++ p.2)
        else some (r.1, g, r.2.1)
    else some (s, g, [])

/-- `v5/packet/subscribe.rs:52-125`: the loop over the requested filters. -/
def subscribeLoopV5 (cfg : Config) (env : Env) (id : Option Nat) :
    Nat → Global → Session → List (Str × SubOpts) →
    Option (Session × Global × List OutPkt × List Reason)
  | _, g, s, [] => some (s, g, [], [])
  | i, g, s, (filter, opts) :: rest =>
    match subscribeCode cfg filter opts with
    | .grantedQos q =>
      match acceptV5 cfg env i g s filter opts id with
      | none => none
      | some (s, g, out) =>
        (subscribeLoopV5 cfg env id (i + 1) g s rest).map fun r =>
          (r.1, r.2.1, out ++ r.2.2.1, .grantedQos q :: r.2.2.2)
    | code =>
      (subscribeLoopV5 cfg env id (i + 1) g s rest).map fun r =>
        (r.1, r.2.1, r.2.2.1, code :: r.2.2.2)

/-- `v5/packet/subscribe.rs:20-139` `handle_subscribe`. -/
def handleSubscribeV5 (cfg : Config) (env : Env) (g : Global) (s : Session) (pid : Pid)
    (topics : List (Str × SubOpts)) (id : Option Nat) : Option Res :=
  if id = some 0 then
    some { session := { s with serverDisconnected := true }, global := g,
           out := [.disconnect .protocolError] }
  else if !cfg.subscriptionIdAvailable && id.isSome then
    some { session := s, global := g,
           out := [.suback pid (topics.map fun _ => .subscriptionIdentifiersNotSupported)] }
  else
    (subscribeLoopV5 cfg env id 0 g s topics).map fun r =>
      { session := r.1, global := r.2.1, out := r.2.2.1 ++ [.suback pid r.2.2.2] }

/-- `v5/packet/subscribe.rs:156-164`: the loop over the filters of an UNSUBSCRIBE. -/
def unsubscribeLoopV5 : Global → Session → List Str → Option (Session × Global × List Reason)
  | g, s, [] => some (s, g, [])
  | g, s, f :: fs =>
    match g.route.unsubscribe f s.clientId with
    | none => none
    | some route =>
      let code := if s.subscribes.contains f then Reason.success else .noSubscriptionExisted
      (unsubscribeLoopV5 { g with route } { s with subscribes := s.subscribes.erase f } fs).map
        fun r => (r.1, r.2.1, code :: r.2.2)

/-- `v5/packet/subscribe.rs:142-171` `handle_unsubscribe`. -/
def handleUnsubscribeV5 (g : Global) (s : Session) (pid : Pid) (topics : List Str) : Option Res :=
  (unsubscribeLoopV5 g s topics).map fun r =>
    { session := r.1, global := r.2.1, out := [.unsuback pid r.2.2] }

/-- The loop over the retained messages, `v3/packet/subscribe.rs:44-65`. -/
def sendRetainedV3 (now : Nat → Nat) (filter : Str) (granted : QoS) :
    Nat → Session → List RetainContent → Session × List OutPkt × Bool
  | _, s, [] => (s, [], false)
  | j, s, c :: cs =>
    if c.qos ≤ granted then
      let r := recvPublishV3 (now j) s c.topic c.qos true c.payload filter granted
      let rest := sendRetainedV3 now filter granted (j + 1) r.1 cs
      match r.2 with
      | none => rest
      | some (finalQos, out) => (rest.1, out.toList ++ rest.2.1, decide (finalQos ≠ 0) || rest.2.2)
    else sendRetainedV3 now filter granted (j + 1) s cs

/-- `v3/packet/subscribe.rs:37-69`: one (not shared) filter of the packet. -/
def acceptV3 (cfg : Config) (env : Env) (i : Nat) (g : Global) (s : Session) (filter : Str)
    (qos : QoS) : Option (Session × Global × List OutPkt) :=
  let granted := min qos cfg.maxAllowedQos
  let s := { s with subscribes := s.subscribes.insert filter { opts := { maxQos := granted } } }
  match g.route.subscribe filter s.clientId granted with
  | none => none
  | some route =>
    let g := { g with route }
    match g.retain.getMatches filter with
    | none => none
    | some cs =>
      let r := sendRetainedV3 (env.now i) filter granted 0 s cs
      if r.2.2 then
        let p := handlePendingsV3 (env.clk i) r.1
        some (p.1, g, r.2.1 ++ p.2)
      else some (r.1, g, r.2.1)

/-- `v3/packet/subscribe.rs:32-70`: the loop over the filters; the flag says that it ended with
`Err` because of a shared filter (the filters before it have taken effect). -/
def subscribeLoopV3 (cfg : Config) (env : Env) :
    Nat → Global → Session → List (Str × QoS) →
    Option (Session × Global × List OutPkt × List Reason × Bool)
  | _, g, s, [] => some (s, g, [], [], false)
  | i, g, s, (filter, qos) :: rest =>
    if isShared filter then some (s, g, [], [], true)
    else
      match acceptV3 cfg env i g s filter qos with
      | none => none
      | some (s, g, out) =>
        (subscribeLoopV3 cfg env (i + 1) g s rest).map fun r =>
          (r.1, r.2.1, out ++ r.2.2.1, .grantedQos (min qos cfg.maxAllowedQos) :: r.2.2.2.1,
            r.2.2.2.2)

/-- `v3/packet/subscribe.rs:17-73` `handle_subscribe`.  On `Err` the packets collected so far are
lost. -/
def handleSubscribeV3 (cfg : Config) (env : Env) (g : Global) (s : Session) (pid : Pid)
    (topics : List (Str × QoS)) : Option Res :=
  (subscribeLoopV3 cfg env 0 g s topics).map fun r =>
    if r.2.2.2.2 then { session := r.1, global := r.2.1, closed := true }
    else { session := r.1, global := r.2.1, out := r.2.2.1 ++ [.suback pid r.2.2.2.1] }

/-- `v3/packet/subscribe.rs:89-92`: the loop over the filters of an UNSUBSCRIBE. -/
def unsubscribeLoopV3 : Global → Session → List Str → Option (Session × Global)
  | g, s, [] => some (s, g)
  | g, s, f :: fs =>
    match g.route.unsubscribe f s.clientId with
    | none => none
    | some route =>
      unsubscribeLoopV3 { g with route } { s with subscribes := s.subscribes.erase f } fs

/-- `v3/packet/subscribe.rs:76-94` `handle_unsubscribe`. -/
def handleUnsubscribeV3 (g : Global) (s : Session) (pid : Pid) (topics : List Str) : Option Res :=
  (unsubscribeLoopV3 g s topics).map fun r =>
    { session := r.1, global := r.2, out := [.unsuback pid []] }

end Akasa
