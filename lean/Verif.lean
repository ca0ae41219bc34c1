import Verif.Engine.Model
import Verif.Engine.Lemmas
import Verif.Distance.Props
import Verif.Forward.PropsD
import Verif.Forward.PropsE
import Verif.Forward.PropsG
import Verif.Forward.PropsJ
import Verif.Forward.PropsK
import Verif.Forward.PropsL
import Verif.Forward.PropsN
import Verif.Tesseroid.PropsI
import Verif.Tesseroid.PropsJ
import Verif.Tesseroid.PropsK
import Verif.Tesseroid.PropsL
import Verif.Tesseroid.PropsM
import Verif.Tesseroid.PropsN
import Verif.Utils.Attrs
import Verif.Utils.PropsB
import Verif.Layers.PropsB
import Verif.Layers.PropsC
import Verif.EqSources.PropsB
import Verif.EqSources.PropsF
import Verif.EqSources.PropsC
import Verif.EqSources.Examples
import Verif.Filters.Examples
import Verif.Filters.PropsG
import Verif.Filters.PropsI
import Verif.Euler.Examples
import Verif.Euler.PropsF
import Verif.Euler.PropsG
import Verif.Forward.PropsO
import Verif.Filters.PropsJ
import Verif.Filters.PropsK
import Verif.Euler.PropsC
import Verif.Oasis.Examples
import Verif.Icgem.Examples
import Verif.Legendre.Examples
import Verif.Igrf.PropsE
import Verif.Igrf.PropsF
import Verif.Igrf.PropsG
import Verif.Ellipsoids.Examples
import Verif.Ellipsoids.PropsJ
import Verif.Ellipsoids.PropsK
import Verif.Ellipsoids.PropsL
import Verif.Layers.PropsD
import Verif.Layers.PropsE
import Verif.Layers.PropsF
import Verif.Progress.Props
import Verif.Shapes.Examples
import Verif.Shapes.PropsB
import Verif.Survey.Examples
import Verif.Survey.PropsC
import Verif.Survey.PropsD
import Verif.EqSources.PropsJ
import Verif.EqSources.PropsK
import Verif.EqSources.PropsL
import Verif.Ellipsoids.PropsV
import Verif.Forward.PropsP
import Verif.Forward.PropsQ
import Verif.EqSources.PropsM
import Verif.Forward.Upward
import Verif.Forward.PropsR
import Verif.Forward.PropsS
import Verif.EqSources.PropsN
import Verif.Ellipsoids.PropsW
import Verif.Ellipsoids.PropsX
import Verif.Continuation.Props
import Verif.Continuation.PropsB
import Verif.Continuation.PropsC
import Verif.Continuation.PropsD
import Verif.Ellipsoids.PropsM
import Verif.Ellipsoids.PropsN
import Verif.Ellipsoids.PropsO
import Verif.Ellipsoids.PropsP
import Verif.Ellipsoids.PropsQ
import Verif.Ellipsoids.PropsR
import Verif.Ellipsoids.PropsS
import Verif.Ellipsoids.PropsT
import Verif.Layers.PropsG
import Verif.Layers.PropsH
import Verif.Ellipsoids.PropsU
import Verif.Layers.PropsI
import Verif.Layers.PropsJ
