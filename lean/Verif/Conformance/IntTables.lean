/-!
# The tables of test/int_test.hpp

Written by tools/gen_conformance.py from the text of the file.
-/

namespace CppMaths.Conformance

/-- The calls of `runAddition` on literals in test/int_test.hpp. -/
def additionTable : List (Int × Int × Int) := [
  (99999999999999, 1, 100000000000000),
  (123456789012345678, 9876543210, 123456798888888888),
  (123456789012345678, 987654, 123456789013333332),
  (999999999, 999999999, 1999999998),
  (999999999999999999, 999999999999999999, 1999999999999999998),
  ((-2716445957404848627014573524176771721308664459798), 2889775078566148412145506450396389475524859430893521163943265493257180008178077570438898156274360372, 2889775078566148412145506450396389475524859430893518447497308088408552993604553393667176847609900574),
  ((-86906712824216289018918588401690550826708787665745), 81651974833641144128235338321239954906776586822634, (-5254737990575144890683250080450595919932200843111)),
  ((-1478626419760253906972936775612839506073530059400306160504493577775047071195993794888581370877455669), 4289775857305409280291666567702564152365335072937844888891956728908779527579392915561687904989248828, 2811149437545155373318729792089724646291805013537538728387463151133732456383399120673106534111793159),
  ((-95026144179053472601487380010185649004640846400783), 427042017658047259432441464514524316691239746362418820510107001511232920742678894041405285332390776, 427042017658047259432441464514524316691239746362323794365927948038631433362668708392400644485989993),
  (88877488136873276265959459385192172082567581384920, 53473915894116984869658972651605463505852458046477, 142351404030990261135618432036797635588420039431397),
  ((-9915946854630268696754570520539398072330697944936040256489159828917325295208565497219532229530898840), 9251724247832551823772704870654445992358729226921577055908687878788262552537956005003551332743094101, (-664222606797716872981865649884952079971968718014463200580471950129062742670609492215980896787804739)),
  ((-5652538598528543225956624599770839555083294435343172954013403698998985205932641431738263065670742783), (-58103578982642650972699215861418987987385815202872), (-5652538598528543225956624599770839555083294435343231057592386341649957905148502850726250451485945655)),
  ((-5409177211171790523964753155254824933152086020450376357548090948332953346894875759309578632749523445), 9174023174079501159183620958822175121037541710445316737584416701876563322843763958631673268540601202, 3764845962907710635218867803567350187885455689994940380036325753543609975948888199322094635791077757),
  (4828216429207487699023761588516797042404475800642981921612866912137037458365868011900987829457708453, 7806181582447528045237860620095797952531561155532197184521410632993582129369020183107355676178410826, 12634398011655015744261622208612594994936036956175179106134277545130619587734888195008343505636119279),
  ((-5665877987781677917156109131480274509324375716716195568625116774369171883520354844200291151712183676), 9012822906707832376725512230945574712946506879037292417203923485767430890287497110758919054417881069, 3346944918926154459569403099465300203622131162321096848578806711398259006767142266558627902705697393),
  (33402297587685462400228430727982690256806802341642, (-63683986271305618566532685025210797361203160503471), (-30281688683620156166304254297228107104396358161829)),
  (15304630214106738460856504216119862632695289014352, (-4495616832734207625888587014356461053602055547791259132836557564888062618556853396602340567101959330), (-4495616832734207625888587014356461053602055547791243828206343458149601762052637276739707871812944978)),
  ((-32799646363699242075180632615288997780745959015786), 46973895631228249036256133444473466158018556753770, 14174249267529006961075500829184468377272597737984),
  ((-5282565021484882741931252666073798594677290131307456006092142476662990725881468130079468486353628868), (-3920232150379683604579824858814596588520825914708291185289492401814424828248398745223596526064255501), (-9202797171864566346511077524888395183198116046015747191381634878477415554129866875303065012417884369)),
  (16717384589292288707461568174528287012648452073063, (-3269178112756550351857100735826408653390797095781981876036793338804968231289303258916269507911150243), (-3269178112756550351857100735826408653390797095781965158652204046516260769721128730629256859459077180)),
  (4034791699890824086241656872793674265769438199687800948201644929696356735661367601005530906626176237, (-80069885472182156251480236274166790483288710152038), 4034791699890824086241656872793674265769438199687720878316172747540105255425093434215047617916024199),
  (1410519716896017477769398904307083342959701194135870693537561098907915704965880522250460571991137057, 88715805892008080593947031462116066934649280771231, 1410519716896017477769398904307083342959701194135959409343453106988509651997342638317395221271908288),
  (17916622657191240673331374413498516318991769150207, 10182691212795931346547033437153048197638179730518, 28099313869987172019878407850651564516629948880725),
  ((-73611411899777243086928085935385758603344206299733), (-63533210710700226165133335008297664455245291455988), (-137144622610477469252061420943683423058589497755721)),
  ((-7239432531375495230529592193883455584664275752968919967622476590901496716409640957575500485199005412), (-2915799589684667133882399461290245204439219149741622383890159653516498362637201579960504389347097499), (-10155232121060162364411991655173700789103494902710542351512636244417995079046842537536004874546102911))]

/-- The calls of `runSubtraction` on literals in test/int_test.hpp. -/
def subtractionTable : List (Int × Int × Int) := [
  (1000000000000, 1, 999999999999),
  (123456798888888888, 9876543210, 123456789012345678),
  (123456789013333332, 987654, 123456789012345678),
  (1, 999999999999999999, (-999999999999999998)),
  (1000000001, 999999999999999999, (-999999998999999998)),
  (6701137507629515770252971172961463776928187343422312382072270990511974194439213877582276229847567004, 62464770588706763485243836851487878215710567832980, 6701137507629515770252971172961463776928187343422249917301682283748488950602362389704060519279734024),
  ((-6816018101871904759239233051382612019023365582546696556177410752306190475675537065228166893870735183), 7518240787342354806557716540556916694123717824714088944481346463032101051274171065768259608461849105, (-14334258889214259565796949591939528713147083407260785500658757215338291526949708130996426502332584288)),
  ((-40290914846948701339920490694779032708465316623063), 14951209254691579473231398753967850817453825525925, (-55242124101640280813151889448746883525919142148988)),
  ((-85242008607800669726525238951119281334757925920304), (-1406058621207740553293568543763010440410983205113207632837412769001583328430269225889404988850514996), 1406058621207740553293568543763010440410983205113122390828804968331856803191318106608070230924594692),
  ((-2359952405463979035512519900718147430579771218762982729453930822291247264402596362835722118762965210), 6352932504009721555210229068233729773017923544196894470832367949906021771241946599003999669214538560, (-8712884909473700590722748968951877203597694762959877200286298772197269035644542961839721787977503770)),
  ((-9898449120483569745371958934734262809378213989801246519644744330706292372047899684220902491840569369), 54806625278549736227610847411011951841758538071559, (-9898449120483569745371958934734262809378213989801301326270022880442519982895310696172744250378640928)),
  ((-96507085252845717368340920233228516510449517935772), (-1743765607581785546859398272514459610085219449496881772220808023995111937903919679283052008797505694), 1743765607581785546859398272514459610085219449496785265135555178277743596983686450766541559279569922),
  (6420732068813480650847878277341581946749757465588203578887179532102080210737600383929532085160821491, 56327481642839954876509006954456747248320439964892, 6420732068813480650847878277341581946749757465588147251405536692147203701730645927182283764720856599),
  (8631155034828001852237506572135983297603853943212985087905105217012050768131974355129906279587127799, 8359379798242555676514199738036458273058030986897633773919609929692363012467597504745110327278414429, 271775236585446175723306834099525024545822956315351313985495287319687755664376850384795952308713370),
  ((-83942249244194282059202285669930860063660194721395), (-1207031674164419788147043371752317109064286261012491158117265546386183731066391666008045064222160510), 1207031674164419788147043371752317109064286261012407215868021352104124528780721735147981404027439115),
  ((-2198284715340141314589224672394893827986287583726955854255419611044469765493321870996625538793281780), 5370863493423960410764380626866715267065606459524445874009053284124898116805048901393090525575216329, (-7569148208764101725353605299261609095051894043251401728264472895169367882298370772389716064368498109)),
  (23877120981688451049423375807126264296660312003313, (-5189607782932458640222094067899749786638761347949657260390709131665625036307561160191295413605948793), 5189607782932458640222094067899749786638761347949681137511690820116674459683368286455592073917952106),
  (98833012204962918544089693571643202929833999585373, (-1231353508438427041969628579332643613737396167963047029287388565745108711608373885760391513940773068), 1231353508438427041969628579332643613737396167963145862299593528663652801301945528963321347940358441),
  ((-53291326317838861357202864399431708257663875299249), 4777929605537478395761345664148977477727019856540237469463875202895465492959396175452662740985984476, (-4777929605537478395761345664148977477727019856540290760790193041756822695823795607160920404861283725)),
  ((-77835266008695160401745374651728837893686521326346), (-2860049448317523025186639817944684149281628448598648949974412292342426062394163083571390310119988777), 2860049448317523025186639817944684149281628448598571114708403597182024317019511354733496623598662431),
  (53937900453470999234192402282344627280748945317689, (-6277909511410052421281692856437143679067382415681224614974056205370013466216487158912301215336496934), 6277909511410052421281692856437143679067382415681278552874509676369247658618769503539581964281814623),
  (9329327794745625046133253723273997858717279458407288396199619374094971206370795947458218697666611197, 247000715973715233900529817051122381597823206414508555399077291141411711978464227487839241983704935, 9082327078771909812232723906222875477119456251992779840800542082953559494392331719970379455682906262),
  ((-62891138802112452379589543036811031091434983064338), (-35567346650080776988287604881597980859832508966315), (-27323792152031675391301938155213050231602474098023)),
  ((-518675274293581095049501996504814805979308012757685558499774116871062260464018388327900903991352069), (-73711246676747373179491126959323430084973925186830), (-518675274293581095049501996504814805979308012757611847253097369497882769337059064897815930066165239)),
  (92677408320670666720451450664287501747311899736654, 20464534484584268937177705338882244397131824654114, 72212873836086397783273745325405257350180075082540)]

/-- The calls of `runMultiplication` on literals in test/int_test.hpp. -/
def multiplicationTable : List (Int × Int × Int) := [
  (999999999, 999999999, 999999998000000001),
  (9999999999, 9999999999, 99999999980000000001),
  (1234567891234, 123456789123456789123456789, 152415787806666675432666675280250887626),
  ((-6748026482029075873672289018172034286487754007295373555942823809223378318669649445771709663922682191), (-3247082882623477475392736773030628880462288543243367048406636011598262794396349940993155431932373276), 21911401281286535410579303395840943444564235494379233339148177085913046923343661944756639650887590330369243374048729049969610310665672384133439229687949186967626628254583359447668409551079526129527716),
  ((-4168044205268599679718983130392587215831710525406631328511489822318184520809135733405157614406383030), 7452887814719475624529661982916715026372747276142441604934842455852104495629448118607791405200937808, (-31063965868658467357474776717793591931469125926264202393212457417174826394077271967917386275131946395698477527849191507878031288912909301152661045410081778115882398829131636772046069705184977256598240)),
  ((-4978976834636844505400123455086419518183822791540550932963733074668991559901958258828079986366984899), (-4091200615511284256506510817938171642299006241328264082862668384940290813275865580455792520035001013), 20369993090482684011212795602663791396635802382312070666087606679748404611634588735992614792424310892228756512960651342909713551987922394479152243755578406411636620776034812504349104285026141220702687),
  ((-58702535166388576077309330998160638157287352271123), 6111165625283506968241491076716599716491756959757695621536949912144807783975770950317188831355539665, (-358740915025830099289462465224546768492873482661192888313700122544551799853420608249277731172085068879861961837892075310671465581440861962425060593795)),
  ((-94636047446758064783798734937700229851498175077382), (-2043362865555426518133307519387626977875487139973), 193375785095646864541729907646735579619205141532517015222012853435073510528233181541939995140390686),
  (59199599010489886559836922121832154809279777768626, 29295909140626098324762876172260951998449275672543, 1734306073772810393312991383585020606449537772893319831515016955340780227464693000469197025995035918),
  (4012961337112004728697827577722646654442826712338308704659277920697051157997525580353477271131569481, (-81299466741859205309822932815698368634885500231864), (-326251616762904275121564532156983454669443235295579187023058299646645874412416300146437245831702359753466908822187789095698896114387717723075726142584)),
  ((-29735846897307588427703579031640210220090791968728), (-4278689315979348350711880656070947367013375041917), 127230450421107633489932133957168179533756151000529461491977157865098662397650404077303463953171576),
  ((-41115946217668498304625642304422242215782643749092), 7698605004047200674355082276101389009946237265978638783549284321009939426352002572780989875514584372, (-316535429297478274649377733787117379757296714224456888602427262509683356651004651700370429791502063773879389249517221829473668966837292665626232390224)),
  (13704284682732519966659408132300492766866252487320, (-3301149581488986805421358951956087523731825667553972224335640405003749438351872222247464796859880709), (-45239893645008390610606075764971292802806581697221008309718515201610641230183691251449546792715697922513776555393939045261261477521461283689735109880)),
  ((-98432901101343153221079428914698847366076907950749), (-3394222074291307656832264183997482494958907431539415508477039900516046009240908812809100623544366802), 334103125754712099486786270259680444414051189802859120727501521928281965654048234224887808331401597566349479767797365973344973722810078883824606634698),
  ((-65132791193095412092584727864180297664969971906618), (-25169793390063278362742637546884938705457041094837), 1639378897248344613314822311071137144762972189366059143612621375834519447362719344432619823045931266),
  ((-61548057246232986828935675747054426092512333917511), (-96991800024194623435584886252734862398542716776735), 5969656860304312680179192076090426926975734703566390678644280077486018360805514442433321585293906585),
  ((-3520846057716019780792370966604359203932850489191150656140230000160679656459018897470492170774254578), (-5914946685253852635119206148331120821208678937542938933391917255994107447341046591131911378307698637), 20825616718376465923392541522680103771562197750007257629262419020121379798945356671616423593685637091147782937518477268066494999809893000863216660800207535605742194377833418087000034973197852341610186),
  (41958587721213417537977259183628957436179156413509, 20547721012592177378151684752753169003577304226081, 862153354577869064149120271086045693973837670563780004337038524400873278617865927104491260858528229),
  ((-6352924118117336128689225344856564300142226628620770169125520570406076562480682345308538434608927331), (-44897125377411193243336805405397198771155162269688), 285228030644293476839813238657368168258959677452390902027358368768366366169696517779169021252528536095311930172471302917718977638661413936345016042728),
  ((-2107401157288885270081346004943615599263524730652), (-6474424856843167630899687703797805776883171584527269530684316588960063018842313597520900345318290723), 13644210436091216806293469243041717846144751257491662143056451672924391353195761810285645244440738578035157747722109254440359036680324428987605341396),
  (22044458814941236145500823354377173098180047876141, 7172232544227900614764481025172873106890343969063862284011676353911775022814643121408728055250458146, 158107984932413153046425515006765292333790984118806097493028503221513279757047649367429971653069079579382940844344627327479188443174242601004512494586),
  (45769308380678807989597635484538565624207183505432, (-87870921858572687059730487422094247888820771767004), (-4021791320239543544492948807584683357357128859463421633564270189469507883625083544769959505472365728)),
  ((-22062738319995653104340077321373564898670704597637), (-5959932762735825247903419739853180892265225771427880538661411705087261655771627182872434945332078329), 131492436949009252527882511015194144621645076315246554796222049334179792457111893442008743959884803320434370765667513985302318324008305129000912308573)]

/-- The calls of `runDivideByInt` on literals in test/int_test.hpp. -/
def divideByIntTable : List (Int × Int × Int) := [
  (999999999999999999, 9, 111111111111111111),
  (999999999999999998, 9, 111111111111111110),
  (999999999999999999, 3456, 289351851851851),
  (123456789123456789, 3456, 35722450556555)]

/-- The calls of `runDivision` on literals in test/int_test.hpp. -/
def divisionTable : List (Int × Int × Int) := [
  (152415787806666675432666675280250887626, 123456789123456789123456789, 1234567891234),
  (892688549133587473460685901957574028827081901509624, 683073114412696749374388399771506007302687338290210, 1),
  (159069612686013579774547350977484902995571365005296, 41760137312781808541142105296096759875884125968758, 3),
  (765957773798222602137633586743641814684603288089155, 537204038351133654713387408478559543656727188063263, 1),
  (852934782428991665597506037335469617630772170224373, 73407779909874116411243581816067470238234948055227, 11),
  (741876764515954241240946435473141754834413033246489, 741460238259148699935829316897511175519334425294893, 1),
  (81625165475312641478534468455447959293609303881517, 70369030994212948397524596189686127723792293577305, 1),
  (175185146111993348257111610634624552199145346790096, 121768966843114993816061624840891743370298576756047, 1),
  (222035070643781191984560529847551282880761790117288, 138191640963284577437992934237241943627612258339043, 1),
  (101538859517268624125905266085838986174465901039616, 25127266418107022571095918433577900923526979733203, 4),
  (201442870850044501307677881987079142194660370291195, 78966195523081964852290294453254176342721118616824, 2),
  (533059976049716808504549883979914024197995755567729689550307275714792474182651938873077948475203288, 303718584091821029036369600969194631679146172555119245164428319308960310662765365049462869636072344, 1),
  (5072149510021600930900670099073870520284549271965767249028278226666407931755014383654194259795344942, 4842950300876913349957310449204912983564289665334588559614131281004299538706853767965055557452461076, 1),
  (256862733196736311839291502883583426485244438160069803660882219837085076044602100720002236456718366, 78510132503588467446062469900258532520974132798489205323522259369589349580829594692606407856244572, 3),
  (8509715751739189345940057132893197137114300157154545497302741521385016181999985352121484840066372259, 6834229923667361198237865388919718323830051876177900097948623627017871728003731275374269737141496185, 1),
  (8227457086537367698872866551143410757697114798114413208538431002925553535106391062918023980735069506, 3936890160374434698784572270365307004533769198190074051333540631388431076764122533514855300432189562, 2),
  (8035576056183626747328175613361290214648309414434182935897937919811101951502709708436329132076984050, 5528243118724562595220559849537134060148555654473338900382604274753869722692622516837107488160600828, 1),
  (3462599762038353730077506707348725537643453509844855166511983987776615772790420360422136019962079446, 225588177339980924843984773920478653567768918893575006670288796963900525703773609930551861456991708, 15),
  (8476768780864785198957413133577658989645488187817256344965704706498162115261331209267385214958599035, 7178189160945940611228454316035852409873019128270312249754666843719430291648412096962005214684573609, 1),
  (7914179271216759099142154592824801793616678904275401083299818579122832850748680923383564985593645340, 281855056185483744749309585484849624277864167952729918028159290903200470801350764774963042311177622, 28),
  (8808104923780124135442777433331471385723023852621636211386148093876899804113918964444191536521344232, 2783984158782532176296727673303491009778550891540980045872500350799312556519289564957451716237619240, 3),
  (5268800346873908079818747448188263027263123994293532348316947406871768216143080114132138343593198089, 71968908090714669226018720531074600357266310065610, 73209396761067180127315144609215007287390617834552),
  (1856718570339540668014659224098447979947318313331384545230819692159514491047080636082089769225831002, 67017518095323335054750792332771900863944432073121, 27704973611505728782168112047781586203356824300129),
  (5578775155583910556789632632567914486979552517536833656235998909566063132775095267860676135344540584, 55249385120119051512839355412926580611761199024397, 100974429732655989387993187988118888889508015667131),
  (6845194883258113493452309978714414652597486784518818324542044495873386915157210051467381388170308291, 18930907750842381050931919735210534795683678777512, 361588306981925806247309070941296410377560069306528),
  (2400354482977426571186834981636325299242678978564280147598192927862937835808562675562426884291199706, 33183366204607748190558087125052898636552738322043, 72336075495683742603832791123827976779911553440967),
  (6352507856685042081274788792655540414173112682116453406032986963773326935554353878455375777139244047, 29382341297429731725822133018073779465213992221110, 216201554273033309195503442027347146032681201782472),
  (6001830797119987125319729965476282723612673142369307176946122725646172541147013597492175585009441798, 65424780663177711278567478205488057581051550901936, 91736353355448535952454649449816142912952463886975),
  (2385228403790041467309336009528207613843517164604453904564491978640126621994745022807460820153799742, 3210095194840235283272195729868785589230401631724, 743039772659686812217979397695153170419603420614643),
  (5604171891744247377474037254252372304727852796090851388031201568431407589141076955967515274004488308, 52203235109970899258968934010465471834542015156012, 107352961553791554437001100367746185213398207299188),
  (9780821028932757939048552319771460850848521692551930372027930462007407881465295658853752073320093636, 33962979486201041009242120536803632485469463248832, 287984775685144115482873428957092491791888148695170),
  (4375105371653981386719912458170096870580469987946477757556499893731674296287432436680748504800464459, 30659888468932008286039346403242494385010069883828, 142698019795059668377835736735948126395586641835620),
  ((-4375105371653981386719912458170096870580469987946477757556499893731674296287432436680748504800464459), 30659888468932008286039346403242494385010069883828, (-142698019795059668377835736735948126395586641835620)),
  (4375105371653981386719912458170096870580469987946477757556499893731674296287432436680748504800464459, (-30659888468932008286039346403242494385010069883828), (-142698019795059668377835736735948126395586641835620)),
  ((-4375105371653981386719912458170096870580469987946477757556499893731674296287432436680748504800464459), (-30659888468932008286039346403242494385010069883828), 142698019795059668377835736735948126395586641835620),
  (5048319869826750734378455832447047781351144764273181757801505590208457948630018831874196994004381449, 8687682638423793469516490816971947483426640928277, 581089351434074434019987504680948665887680265128851),
  ((-5048319869826750734378455832447047781351144764273181757801505590208457948630018831874196994004381449), 8687682638423793469516490816971947483426640928277, (-581089351434074434019987504680948665887680265128851)),
  (5048319869826750734378455832447047781351144764273181757801505590208457948630018831874196994004381449, (-8687682638423793469516490816971947483426640928277), (-581089351434074434019987504680948665887680265128851)),
  ((-5048319869826750734378455832447047781351144764273181757801505590208457948630018831874196994004381449), (-8687682638423793469516490816971947483426640928277), 581089351434074434019987504680948665887680265128851),
  (7787284917477063688397732378872047986606328036425225356969343761868534104268141034572126532815594304, 76403468436865991945090345059466389538253495002336, 101923185907612072984238499907662990966466272500851),
  ((-7787284917477063688397732378872047986606328036425225356969343761868534104268141034572126532815594304), 76403468436865991945090345059466389538253495002336, (-101923185907612072984238499907662990966466272500851)),
  (7787284917477063688397732378872047986606328036425225356969343761868534104268141034572126532815594304, (-76403468436865991945090345059466389538253495002336), (-101923185907612072984238499907662990966466272500851)),
  ((-7787284917477063688397732378872047986606328036425225356969343761868534104268141034572126532815594304), (-76403468436865991945090345059466389538253495002336), 101923185907612072984238499907662990966466272500851),
  (3563279195617349670092060887886682309093542345059254737086851816803913257636748665736405736093390757, 99912884971696237301856481335342189829935091254402, 35663860538375717162705612378888647558535932468745),
  ((-3563279195617349670092060887886682309093542345059254737086851816803913257636748665736405736093390757), 99912884971696237301856481335342189829935091254402, (-35663860538375717162705612378888647558535932468745)),
  (3563279195617349670092060887886682309093542345059254737086851816803913257636748665736405736093390757, (-99912884971696237301856481335342189829935091254402), (-35663860538375717162705612378888647558535932468745)),
  ((-3563279195617349670092060887886682309093542345059254737086851816803913257636748665736405736093390757), (-99912884971696237301856481335342189829935091254402), 35663860538375717162705612378888647558535932468745),
  (8175531939911896644418378796299632572087306321375356920018889704892514058629157286800304342399311919, 92348952391545222255989121411116812355627827988565, 88528691752223786538064506473719414467805022516684),
  ((-8175531939911896644418378796299632572087306321375356920018889704892514058629157286800304342399311919), 92348952391545222255989121411116812355627827988565, (-88528691752223786538064506473719414467805022516684)),
  (8175531939911896644418378796299632572087306321375356920018889704892514058629157286800304342399311919, (-92348952391545222255989121411116812355627827988565), (-88528691752223786538064506473719414467805022516684)),
  ((-8175531939911896644418378796299632572087306321375356920018889704892514058629157286800304342399311919), (-92348952391545222255989121411116812355627827988565), 88528691752223786538064506473719414467805022516684),
  (7642027738794016737876512389246877930889098141986993524240616337472134487997231025054549432057955672, 85233228759360770615609137502923193180942249246970, 89660192979075994912936266305071643520521790400730),
  ((-7642027738794016737876512389246877930889098141986993524240616337472134487997231025054549432057955672), 85233228759360770615609137502923193180942249246970, (-89660192979075994912936266305071643520521790400730)),
  (7642027738794016737876512389246877930889098141986993524240616337472134487997231025054549432057955672, (-85233228759360770615609137502923193180942249246970), (-89660192979075994912936266305071643520521790400730)),
  ((-7642027738794016737876512389246877930889098141986993524240616337472134487997231025054549432057955672), (-85233228759360770615609137502923193180942249246970), 89660192979075994912936266305071643520521790400730),
  (8247763238089273547361905144605704475710105588478623999260213893838700204692131229672943892608030844, 51830110525585994037023837475497560113777123339955, 159130728344053128747308027314124243433615682779084),
  ((-8247763238089273547361905144605704475710105588478623999260213893838700204692131229672943892608030844), 51830110525585994037023837475497560113777123339955, (-159130728344053128747308027314124243433615682779084)),
  (8247763238089273547361905144605704475710105588478623999260213893838700204692131229672943892608030844, (-51830110525585994037023837475497560113777123339955), (-159130728344053128747308027314124243433615682779084)),
  ((-8247763238089273547361905144605704475710105588478623999260213893838700204692131229672943892608030844), (-51830110525585994037023837475497560113777123339955), 159130728344053128747308027314124243433615682779084),
  (7248356142697495711903968371372298448777693068083996798558973854343178486009439997530238115808804246, 64140276029031871734930414121824981546385516776913, 113007872610599082068741019625487265854916901100586),
  ((-7248356142697495711903968371372298448777693068083996798558973854343178486009439997530238115808804246), 64140276029031871734930414121824981546385516776913, (-113007872610599082068741019625487265854916901100586)),
  (7248356142697495711903968371372298448777693068083996798558973854343178486009439997530238115808804246, (-64140276029031871734930414121824981546385516776913), (-113007872610599082068741019625487265854916901100586)),
  ((-7248356142697495711903968371372298448777693068083996798558973854343178486009439997530238115808804246), (-64140276029031871734930414121824981546385516776913), 113007872610599082068741019625487265854916901100586),
  (5006917962817744191651111378501160484692590016152190230470577015373326559412993706939836999862783527, 92359147423877222417816701791544399519609936632226, 54211392184455426478778637245471270208443062429585),
  ((-5006917962817744191651111378501160484692590016152190230470577015373326559412993706939836999862783527), 92359147423877222417816701791544399519609936632226, (-54211392184455426478778637245471270208443062429585)),
  (5006917962817744191651111378501160484692590016152190230470577015373326559412993706939836999862783527, (-92359147423877222417816701791544399519609936632226), (-54211392184455426478778637245471270208443062429585)),
  ((-5006917962817744191651111378501160484692590016152190230470577015373326559412993706939836999862783527), (-92359147423877222417816701791544399519609936632226), 54211392184455426478778637245471270208443062429585),
  (8732037132499916294995003396470923085126622228271376354946729964112965633390766613994812525049868998, 71941543477960576971115492453135303501499130618954, 121376838893858202990675431550151709793337267900456),
  ((-8732037132499916294995003396470923085126622228271376354946729964112965633390766613994812525049868998), 71941543477960576971115492453135303501499130618954, (-121376838893858202990675431550151709793337267900456)),
  (8732037132499916294995003396470923085126622228271376354946729964112965633390766613994812525049868998, (-71941543477960576971115492453135303501499130618954), (-121376838893858202990675431550151709793337267900456)),
  ((-8732037132499916294995003396470923085126622228271376354946729964112965633390766613994812525049868998), (-71941543477960576971115492453135303501499130618954), 121376838893858202990675431550151709793337267900456)]

/-- The calls of `runModulus` on literals in test/int_test.hpp. -/
def modulusTable : List (Int × Int × Int) := [
  (0, 3, 0),
  (5, 3, 2),
  (5, (-3), (-1)),
  ((-5), 3, 1),
  ((-5), (-3), (-2)),
  ((-5), (-5), 0),
  (5, (-5), 0),
  ((-5), 5, 0),
  (5, 5, 0),
  (987654321, 417, 246),
  ((-987654321), 417, 171),
  (987654321, (-417), (-171)),
  ((-987654321), (-417), (-246)),
  (570401956580120360777015577391676744559280693141797786119306070944787417435180094003090124698038033, 84991312281510074036013989474209118798404573512711, 34866709711359262278470001803549989127138561794359),
  (2253609833810607247114425818442753590690556891902473846901194639140277681230447597844666396052682583, 90843777999971773326249322942501772193271666471153, 58618912692410678659531040271152339531181990724017),
  ((-9356268829768016010172835243338887144508477233788949827561380310818425057081356129644623696998737409), 80505731752392216575189266040932292701271566499214, 55965798259495433324932230759252587177448006192781),
  (8899709604542087356368934530359901969706645998212268216892774760946837901654212492817587216802061632, 74198260422247442943553003617331780466821445499820, 14717279702289283557498005315778216852107133508452),
  (2381137163307800925955224436975097309589601648354178310861379222933766175673226490512878907834260578, (-19340249741851678279229487055487618861320135080260), (-12574718878808100046630184884011825140487800286842)),
  (2089274586252646363143287639136218276093735813007154927877851442148038265075379041324334777097938374, (-76473811825932962824259776249350449186534465450231), (-55747895806456093224287164509012957655892008387779)),
  ((-238874125948408056382085439523963486129586186252040433201335304733192413670323673325751453952850576), 26801775952689593654317198815093848214924445301889, 26039253209390713516280569686713136184742040631617),
  (5036313710477217393149224386947946769338968654461562525224047415846943039155925416452260812347936733, 35691963930422169523018598542761769118614365061364, 4389084268493036333551261226246362829437049862149),
  (1727073714527151381214406804456988838749918622188082262142072920695566330504814957730975958204421155, (-68060783250572826656972342111883238918458047917622), (-19264307168413615782479633688522354098691235776219)),
  (7198302433883898671327555641309051658538441610518862455922303787796343129520395879733593102112944478, (-25271956389930490041009813891350347343291210840876), (-22048879358517842677823621365823565204278962171850)),
  (281148440327403732590390854073018453494196338867917016725969049881954043192954017093180156602132682, (-33128543500123425714132256438766179302083778661837), (-25135889516689406828493439212509700873165449418230)),
  ((-1176452021085174314543813826503448336922699641099385847505276555165288243332611331289376818934592232), (-56666901675893704676405961742602771659813942683294), (-17174656674145934662400717305471006007086278150868)),
  ((-4846913066395963633385349365722813829586228654113613025420763833062012366415894749222020975592442915), 60154089283858081325352124749511225237378661592728, 31955831675119825013657894126697981787768567793749),
  (1426941022967688491335127351898915603024702706966700931882497901648601279978607108048333330172186448, 44290047161695564035028022778864445689623403057886, 25787806938861478770281818195458814470883624392030),
  (1372778961307217257961984307723300389825021006895786687847208357877707698377718646155518928423668204, (-24384962577280857585537619827615679112202079394753), (-15630971108159720758944020039789508075844257423195)),
  (5751884375254005229226444375045972048503496310481879609665621519654853139091361672313139146509620430, (-60823495420835514352247500554072257929238406440487), (-57367674742432786493554841729411931132106302028217)),
  (2172717180424691788775875937560361326454013445604933257552624121266190053900950227425165728869216424, 9539033626432703765964917915760309349436658508685, 3365149443288055536323703087813269004419245038484),
  ((-4309097921208262092273629270608676643203179234265797073440737776662492024965010600843120656394613804), (-73911443955577583868697767522218525814603410638128), (-12068008436373706229530200752373577478421612741788)),
  (5171507397226173047241199197472560516365689623051251408266019529874220233519762622317040638819270933, 69148999053488200544279913478732589560489870922124, 15005735592633213777770890356188023039036332138325),
  (4220166919790870227851609992124955529366828396623482803074416148886109561887436597656589237314843997, 23786968737542539642905041481979972065276615710347, 19493580213365553057812881012054202760537912221436)]

/-- The calls of `runExponentiation` on literals in test/int_test.hpp. -/
def exponentiationTable : List (Int × Int × Int) := [
  (2, 0, 1),
  (2, 1, 2),
  (2, 2, 4),
  (2, 3, 8),
  ((-2), 0, 1),
  ((-2), 1, (-2)),
  ((-2), 2, 4),
  ((-2), 3, (-8)),
  (2, 8, 256),
  (2, 9, 512),
  (987, 20, 769738223842181441453473918342107866070875104572033095898801),
  ((-41), 188, 1597221190204298177771384378654321802634178203182932179001628594762267875203046628894699371568784766393676418789614112341404800879487570781165445790436616892779949429902490951856020175982349923177194827148084622496483142898529272657912962040945283385354041733402580138202169249833986457905625816708836321),
  ((-328), 3, (-35287552)),
  (482, 149, 5943040605868634321963069663458668832588969212111613573945308049029707138893179349523527320330656563264923772256144016668415104436149084722126587081987740932389216579825283736852979758213290680330798393908260822385033707972689436509881229338454534698005226799657718669718798033114270409126294026381421045609211354466324328573733300030499227583257980553723197270229803520715248307419568358292698693632),
  ((-284), 132, 688685415995204088531045690988977122692199825028177464314188335149796184634893511898989585918900147195960588046498653444646055576967602642630275593573775579966630376865096865670193440623208962422650305475936024509614659038089164321652683246122588608971223253631777944459283977258278819914786395811836647636006291255230201856),
  ((-258), 452, 11274754530887837392209196588340872899609791363697689539049006653209732544874920616701088443569045511814530499834901547489437156909135347746929886312909650364507653052184894624011344638055904532852514949381341511831077550250548927313075934285663620321130920944370457671776134395076953569447901826873068747369319335212197114953630493906675079591258890822381297848680977749946600481315601465189400610218124864534160222315863634088511538801146761751779744997516996344143212908376580593851506031963489046404916594768744419541636839372534739855840590427574422891754440882034578894350403566846409645636071556478558134057846661648805086966877346053332970843369382081660195557689000440367382939716594096713852277466342959411160150120541284878858732597161647033839312350076530399798712843796919485441155875719649795812375895310223901877795587140881019433499381103296507680109053134011422767843176970458335140099780840600888320101412269567101346876325363758489560680724361961512188232309147300107666066068766580250315882264852283504730118623999594097425108135246149739047208502048516826184182122151936),
  (125, 193, 505396826494024363328824941679740754105415490236034155141985725769853981763360215526420061397013512355396320719811381812602732960283226345361910793282830837056298407990091027458545729687520698285730952388989706912596199080391319856692535228629501225327752860637651922242150080110141172074080869128887479600456220750510165893429785412671635585678995117206863186870742510325982266294886358082294464111328125),
  (379, 433, 3554495069727883260585514498529220700175805199857383930182767251392972516276539335104572578195680721679849501102335201906127810815632150256391452016580553868357920482519675863806926514293368359437663705121791185208680252977144719854027188867732135888031875951690531869600020717114597260373678347235938761491103021688394138728384750133595589064432432681423750769285974099355179618514607547991842304267104351300975578348909279605021689736478309920911081864210735020739812844688486409708047646809634935670928492200594584121738125732006462777089899312066922079807721349242921546799754035732221192431393161724634227556127461943325080215879816284831018841343790462463074243297077837140172194700711046014530199133200079802846454594883189355057591223310043122596232270939870562838632302844902291680234397567157624043180971154651320270912813132432401113187322538970016849267726720989500367469416033685481628525665994758891924445002233411414806025259606641252681506332155171046596190109901384561988838375001856693277358627725770915596417909916693060023613025031231842747087547878300562863547092880385090315519091131919906753339),
  (386, 411, 12228754323835659576465649481805733180358052094781094125831276285335801812349716232262014428583210549409926071677866285653929944609684641606253740513881471419928758099400913298062969451239969043953236170805182300340914590408347225563674036957800951206224856645237240248075974078302136179768064602761431720940611985965427699145588730962272204519267092006776716958105054082725707251821228120898415636032324084047647136482620566250591915350577546213104484647713419807649940150064263838896385512036002290227398799564427848778595390513959701301748569130675845184523188256693382743463821178085403512918361880565412073192789404294469530326053290413824574505942633691220478125968454675389040885983286913296081169413112826982084761210371007607561551005985450286762602232235279535726118246998199672336603542497669066295620821899573473219358594377906053604061169847437417616564342137874680454319846015470636531947301181588058259647438723234326258540297021245615328065408281047785647645556235580474467231067239983251314734083445522221739649451641372877286320020820996952948736)]

/-- The calls of `runTimesPowerTen` on literals in test/int_test.hpp. -/
def timesPowerTenTable : List (Int × Int × Int) := [
  (2, 0, 2),
  (2, 1, 20),
  (2, 2, 200),
  (2, 3, 2000),
  (2, 4, 20000),
  (2, 5, 200000),
  (2, 6, 2000000),
  (2, 7, 20000000),
  (2, 8, 200000000),
  (2, 9, 2000000000),
  (2, 10, 20000000000),
  (2, 11, 200000000000),
  (2, 12, 2000000000000),
  (2, 13, 20000000000000),
  (2, 14, 200000000000000),
  (2, 15, 2000000000000000),
  (2, 16, 20000000000000000),
  (2, 17, 200000000000000000),
  (2, 18, 2000000000000000000),
  (2, 19, 20000000000000000000),
  (2, 0, 2),
  (20, (-1), 2),
  (200, (-2), 2),
  (2000, (-3), 2),
  (20000, (-4), 2),
  (200000, (-5), 2),
  (2000000, (-6), 2),
  (20000000, (-7), 2),
  (200000000, (-8), 2),
  (2000000000, (-9), 2),
  (20000000000, (-10), 2),
  (200000000000, (-11), 2),
  (2000000000000, (-12), 2),
  (20000000000000, (-13), 2),
  (200000000000000, (-14), 2),
  (2000000000000000, (-15), 2),
  (20000000000000000, (-16), 2),
  (200000000000000000, (-17), 2),
  (2000000000000000000, (-18), 2),
  (20000000000000000000, (-19), 2),
  (2, (-1), 0),
  (20, (-2), 0),
  (200, (-3), 0),
  (2000, (-4), 0),
  (20000, (-5), 0),
  (2, (-11), 0),
  (20, (-12), 0),
  (200, (-13), 0),
  (2000, (-14), 0),
  (20000, (-15), 0),
  (20000000000, (-11), 0),
  (200000000000, (-12), 0),
  (2000000000000, (-13), 0),
  (20000000000000, (-14), 0),
  (200000000000000, (-15), 0),
  (20000000000, (-21), 0),
  (200000000000, (-22), 0),
  (2000000000000, (-23), 0),
  (20000000000000, (-24), 0),
  (200000000000000, (-25), 0)]

/-- The calls of `runQuotientAndRemainder` on literals in test/int_test.hpp. -/
def quotRemTable : List (Int × Int × Int × Int) := [
  (8, 5, 1, 3),
  (3792716099701581623022653685858767827149721399596866233228853193543187507585601243997890028487021230001261845, 3819478642823010818696972939434699323016791829155104071532167070622505736629553434354326421340630305, 992993142, 1362864360264754180840530042562004362404212235901133860016809640256796489161496694066372891178893535),
  (2568686827233851938444978246779850290982230995594347904736017078756406219656903161543146215349718383475994213, 4776042213900538941787814459372526950743081645110831072862482128756549348356502553314866758288238962, 537827496, 2541428686332748232782930389871564055080828986339394763102521690029893677976204927165917576293895061),
  (1173666082498524514831814884031043970018836787831363195418178241647758522122026343712859498235053150251348021, 3038782747393111516906750532149692360491507502455519405656062126181646300036751249018284403876332395, 386229019, 3018758246299318711521140328474407487326827844236174315249567055853852244857502799862897492012577516),
  (2434226020623350141731174379746604923467331557563081529011352989465617287675634579611783383997596448951895638, 5484840551507269485208694881897135509777528684447479118479622797415055124188700211255995875448613792, 443809805, 5002816415418253119907339182814390958736539288697339699271287168945196755650801049433942874404065078),
  (1584881892517494882879094133117350620579966872648274055995703245654676567599475251647781839113702865728683102, 3305288852060938065031791044557452436852489563771306034390155559107168724981149948052188064119167022, 479498755, 3038895896564241291831902651137482008169439707781636470806460252396076453088442987342702107042625492),
  (2394774660447748735920381847420099681100336989974449785044525316807011659097841328033831167178593541515896381, 5732719557783628441453975810032924744702275705163956880481522532683188874546343112666477521724801881, 417737975, 1136320302634991936837961014921016359007561394804857069087065022102322912493339996870256296470765406),
  (7032543910658316172597334773051602065582225829531641628345787809568391659398472794971516030902010004228591057, 8022453411399262949518900453516730360645381858845284354253688316014379190294545030487852634381270311, 876607634, 6816379649075710008212774084720910925222754938506244259093582407415535912689101667336377582988436883),
  (2273975059668948015330329772165790384261069027262990865482410900679189788955522583426425085584180776709928291, 4155747943372654456169690258863579516923636787805272840468532880220074910529585503188839427957574721, 547187916, 3113579212070723617052727780095337482202889406095033930374089377298952235592712684541443328711656855),
  (675898052084638692296410570663463160074220992724337527320971134522767720771007996774166857720430818750386415, 9584891031592281589580708872157158280253486619263587223061646087299183400176374143763624339887244927, 70517030, 3663114823675500035704290664910837469189128569204716345535308585965268615987163047235871771615779605),
  (2753361386165125629846383350416262040029675041666320206507275556985479911234210811760866860639283947180766740, 3981084586998815818602843210870892618288621897978664335801089555555690315504991817793876321320435980, 691610872, 3445114758575077135666564116876718103127001127828583190917516487565848300303578941790705027632792180)]

end CppMaths.Conformance
