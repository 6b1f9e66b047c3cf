import Verif.Model.ContextMake

/-!
# Encryption with a context that has a configuration (encrypt.cpp)

Of the context, `encryptBallot` uses the public key and the extended base hash (encrypt.cpp:569, 639-640), and the
constructor of the mediator the hash of the manifest (encrypt.cpp:122); nothing in the library reads the configuration
but serialization (serialize.hpp:755-756).
-/

namespace EG

/-- encrypt.cpp:585-646 `encryptBallot`. -/
def FullContext.encryptBallot (G : Params) (C : Crypto) (S : StdSort) (c : FullContext) (b : PBallot) (m : IManifest)
    (codeSeed : ℕ) (nonce : Option ℕ) (timestamp : ℕ) (verify : Bool) : M CBallot :=
  EG.encryptBallot G C S b m c.context codeSeed nonce timestamp verify

/-- encrypt.cpp:117-127: the constructor of the mediator. -/
def FullContext.mediator (c : FullContext) (m : IManifest) (d : Device) : Res Mediator := Mediator.make m c.context d

end EG
