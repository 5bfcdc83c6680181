import Verif.Model.Start
/-! # The configurations that the program proposes

`akasa/src/main.rs:127-134` prints one of them, as text for a configuration file. -/
namespace Akasa.Start

/-- `config.rs:116-130` `Listeners::default`; `addr` is port 1883 of the local host. -/
def Listeners.default (addr : Addr) : Listeners :=
  { mqtt := some { addr, reusePort := true, proxyMode := none } }

/-- `config.rs:189-236` `Config::default`, without the parts that `ServerConfig` leaves out; `path` is
the path proposed for the password file. -/
def Settings.default (addr : Addr) (path : Path) : Settings :=
  { listeners := .default addr
    passwordFile := some path
    rest :=
      { authEnable := true
        scramUsers := [("user".toList,
          { hashedPassword := Scram.utf8 "***".toList, iterations := 4096
            salt := Scram.utf8 "salt".toList })]
        saslMechanisms := [.scramSha256]
        checkV310Length := false
        maxAllowedQos := 2
        inflightTimeout := 15
        maxInflightClient := 10
        maxInflightServer := 10
        maxInMemPending := 256
        minKeepAlive := 10
        maxKeepAlive := 65535
        maxSessionExpiry := 4294967295
        maxPacketSizeClient := 268435460
        maxPacketSizeServer := 268435460
        topicAliasMax := 65535
        retainAvailable := true
        sharedAvailable := true
        subscriptionIdAvailable := true
        wildcardAvailable := true } }

/-- `config.rs:239-247` `new_allow_anonymous`. -/
def Settings.anonymous (addr : Addr) (path : Path) : Settings :=
  { Settings.default addr path with
    passwordFile := none
    rest := { (Settings.default addr path).rest with authEnable := false } }

end Akasa.Start
