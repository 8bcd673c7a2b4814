import Verif.Spec.Owners
/-! # Specification: keys that sign alike -/

namespace Verif.Spec

open Verif

/-- The two keys sign this digest alike. -/
def SignAlike (E : Env) (k k' digest : Bytes) : Prop := E.sign k (E.sha3 digest) = E.sign k' (E.sha3 digest)

end Verif.Spec
