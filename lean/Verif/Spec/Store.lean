import Verif.Model.Store
/-!
# Programs without shared arrays
-/
namespace KMethods
variable {S X Y W U P : Type}

/-- a call of a method, with arguments that belong to the call -/
inductive EstCall (X Y W U : Type) where
  | fit (checked : Except PyErr (Arr2 X × Y)) (w : W)
  | predict (checked : Except PyErr (Arr2 X))
  | setParams (u : U)

/-- the results of the calls -/
def EstClass.trace (E : EstClass S X Y W U P) : List (EstCall X Y W U) → S → List (Except PyErr (Option P))
  | [], _ => []
  | .fit c w :: l, s => (E.fit c w s).1.map (fun _ => none) :: E.trace l (E.fit c w s).2
  | .predict c :: l, s => (E.predict c s).1.map some :: E.trace l (E.predict c s).2
  | .setParams u :: l, s => (E.setParams u s).1.map (fun _ => none) :: E.trace l (E.setParams u s).2

/-- the results of the method calls of a program that also writes into its arrays -/
def SharedEst.trace (E : EstClass S X Y W U P) : List (EstStep X Y W U) → SharedEst S X → List (Except PyErr (Option P))
  | [], _ => []
  | .write r row :: l, w => trace E l (w.step E (.write r row)).2
  | st :: l, w => (w.step E st).1 :: trace E l (w.step E st).2

/-- the calls of the program, with the contents that the arrays have at the time of the call -/
def EstStep.calls : List (EstStep X Y W U) → (Nat → Arr2 X) → List (EstCall X Y W U)
  | [], _ => []
  | .write r row :: l, a => calls l fun q => if q = r then { a r with row := row } else a q
  | .fit d y w :: l, a => .fit ((d.checked a).map fun A => (A, y)) w :: calls l a
  | .predict d :: l, a => .predict (d.checked a) :: calls l a
  | .setParams u :: l, a => .setParams u :: calls l a

/-- the program never overwrites the array that `_train_X` refers to at that moment -/
def SharedEst.Careful (E : EstClass S X Y W U P) : List (EstStep X Y W U) → SharedEst S X → Prop
  | [], _ => True
  | .write r row :: l, w => w.train ≠ some (.inl r) ∧ Careful E l (w.step E (.write r row)).2
  | st :: l, w => Careful E l (w.step E st).2

/-- the data passed to `fit` is copied or rejected -/
def EstStep.Copies : EstStep X Y W U → Prop
  | .fit (.array _) _ _ => False
  | _ => True

/-- the program overwrites some of its arrays -/
def SharedEst.overwrite (E : EstClass S X Y W U P) : List (Nat × (Nat → X)) → SharedEst S X → SharedEst S X
  | [], w => w
  | (r, row) :: l, w => overwrite E l (w.step E (.write r row)).2

/-- a step that neither fits the composite kernel again nor writes into its matrix -/
def CompStep.Elsewhere {K X : Type} : CompStep K X → Prop
  | .fit _ => False
  | .writeKM _ => False
  | _ => True

end KMethods
