import Verif.Model.Lifecycle

/-!
# Specification vocabulary: the life of the objects with threads
-/
namespace Drift.Life

/-- the objects with threads: subscriber, publisher, gyro filter, estimator constructed from a configuration file (with the logger on
or off), estimator constructed without -/
inductive Kind
  | sub
  | pub
  | filter
  | est (logger : Bool)
  | estDefault

/-- an object is constructed, the function that starts its thread is called `n` times, and it is destroyed; whether this goes without
`std::terminate` and without reading an uninitialised variable -/
def lives : Kind → ℕ → Bool
  | .sub, n => ((times Sub.start n Sub.ctor).bind Sub.dtor).isSome
  | .pub, n => ((times Pub.start n Pub.ctor).bind Pub.dtor).isSome
  | .filter, n => ((times Filt.start n Filt.ctor).bind Filt.dtor).isSome
  | .est lg, n => (((Est.ctor lg).bind (times Est.start n)).bind Est.dtor).isSome
  | .estDefault, n => ((times Est.start n Est.ctor0).bind Est.dtor).isSome

/-- how often the programs call the function that starts the thread: once, of the estimator never (its constructor does it) -/
def intended : Kind → ℕ
  | .est _ => 0
  | .estDefault => 0
  | _ => 1

end Drift.Life
